import Verif.Props.Locality
import Verif.Props.Step2
/-
C168: LED arrays that were merged differently in step 3 and in the analysis.
-/
namespace Ledsa

/-! ### Specification -/

/-- The result files of the images 1 to `N` hold, under the number of the array, one value `v i l` for each of `leds` and nothing else;
there is a reference image. -/
structure RecordedAs (a : ArrayAnalysis) (files : ℕ → List (ℕ × ℕ × ℝ)) (N : ℕ) (leds : List ℕ) (v : ℕ → ℕ → ℝ) : Prop where
  images : 0 < N
  sorted : leds.Pairwise (· < ·)
  some_led : leds ≠ []
  once : ∀ i, 1 ≤ i → i ≤ N → ((files i).map (·.1)).Nodup
  rows : ∀ i, 1 ≤ i → i ≤ N → ∀ l x, (l, a.arr, x) ∈ files i ↔ l ∈ leds ∧ x = v i l
  reference : ∃ i, 1 ≤ i ∧ i ≤ N ∧ a.ref.selects i = true

/-! ### Different numbers of LEDs -/

theorem mapM_id_error_of {C : Type} (e : PyErr) (rs : List (Except PyErr C)) (hne : rs ≠ []) (h : ∀ x ∈ rs, x = .error e) : rs.mapM id = .error e := by
  cases rs with
  | nil => exact absurd rfl hne
  | cons x xs => rw [List.mapM_cons, h x (by simp)]; rfl

theorem mapM_option_length {α β : Type} (f : α → Option β) : ∀ (l : List α) (l' : List β), l.mapM f = some l' → l'.length = l.length
  | [], l', h => by cases h; rfl
  | x :: l, l', h => by
    rw [List.mapM_cons] at h
    cases hx : f x with
    | none => rw [hx] at h; cases h
    | some y =>
      cases hl : l.mapM f with
      | none => rw [hx, hl] at h; cases h
      | some ys =>
        rw [hx, hl] at h
        cases h
        simp [mapM_option_length f l ys hl]

theorem ledPositions_length {C : Type} (t : List C) (ids : List ℕ) (pos : List C) (h : ledPositions t ids = .ok pos) : pos.length = ids.length := by
  unfold ledPositions at h
  cases hm : ids.mapM (fun i => t[i]?) with
  | none => rw [hm] at h; cases h
  | some l =>
    rw [hm] at h
    cases h
    exact mapM_option_length _ _ _ hm

theorem distanceArray_length (cam : P3) (ls : List Layer) (pos : List P3) : (distanceArray cam ls pos).length = pos.length := by
  simp [distanceArray, distanceRows]

theorem firstImgs_ne_nil (N : ℕ) (h : 0 < N) : firstImgs N ≠ [] := by
  intro e
  have := congrArg List.length e
  simp [firstImgs] at this
  omega

theorem linearImage_mismatch (n : ℕ) (rows : List (Option (List ℝ))) (lam : ℝ) (rel : List ℝ) (r : Except PyErr (Fin n → ℝ))
    (hne : rel.length ≠ rows.length) (h : LinearImage n rows lam rel r) : r = .error .valueError := by
  unfold LinearImage at h
  split at h
  · exact h
  · rename_i M hM
    rwa [if_neg] at h
    rwa [mapM_option_length _ _ _ hM]

theorem nonlinearImage_mismatch (n : ℕ) (rows : List (Option (List ℝ))) (o : NonlinearOptions) (rel : List ℝ) (r : Except PyErr (Fin n → ℝ))
    (hd : rows.mapM id ≠ none) (hne : rel.length ≠ rows.length) (h1 : rel.length ≠ 1) (h2 : rows.length ≠ 1) (h : NonlinearImage n rows o rel r) :
    r = .error .valueError := by
  unfold NonlinearImage at h
  split at h
  · rename_i hM
    exact absurd hM hd
  · rename_i M hM
    have e := mapM_option_length _ _ _ hM
    rw [if_neg (by rw [e]; exact hne), if_neg (by rw [e]; exact fun e => e.elim h1 h2)] at h
    exact h

/-- **C168 (linear solver).** If the array of the analysis has another number of LEDs than was recorded under its number, the analysis ends
with an error and no coefficients are calculated. -/
theorem C168_noticed (a : ArrayAnalysis) (files : ℕ → List (ℕ × ℕ × ℝ)) (N : ℕ) (leds : List ℕ) (v : ℕ → ℕ → ℝ) (hr : RecordedAs a files N leds v)
    (pos : List P3) (hp : ledPositions a.coordinates a.ids = .ok pos) (hne : a.ids.length ≠ leds.length)
    (r : Except PyErr (List (Fin a.layers → ℝ))) (h : a.Result files N r) : r = .error .valueError := by
  unfold ArrayAnalysis.Result at h
  rw [solverInput_table a files N hr.images leds v hr.sorted hr.some_led hr.once hr.rows hr.reference pos hp] at h
  obtain ⟨rs, hall, rfl⟩ := h
  rw [List.forall₂_iff_get] at hall
  refine mapM_id_error_of _ _ ?_ ?_
  · intro e
    have := hall.1
    rw [e, List.length_map] at this
    exact firstImgs_ne_nil N hr.images (List.length_eq_zero_iff.1 this)
  · intro x hx
    obtain ⟨i, hi, rfl⟩ := List.getElem_of_mem hx
    have := hall.2 i (by rw [hall.1]; exact hi) hi
    refine linearImage_mismatch _ _ _ _ _ ?_ this
    rw [distanceArray_length, ledPositions_length _ _ _ hp, List.get_eq_getElem, List.getElem_map]
    simp only [relOf, List.length_map]
    exact fun e => hne e.symm

/-- **C168 (nonlinear solver).** The same, if all distances exist and neither number is 1. -/
theorem C168_noticed_nonlinear (a : ArrayAnalysis) (o : NonlinearOptions) (files : ℕ → List (ℕ × ℕ × ℝ)) (N : ℕ) (leds : List ℕ) (v : ℕ → ℕ → ℝ)
    (hr : RecordedAs a files N leds v) (pos : List P3) (hp : ledPositions a.coordinates a.ids = .ok pos) (hne : a.ids.length ≠ leds.length)
    (h1 : a.ids.length ≠ 1) (h2 : leds.length ≠ 1) (hd : (distanceArray a.cam (layers a.lo a.hi a.layers) pos).mapM id ≠ none)
    (r : Except PyErr (List (Fin a.layers → ℝ))) (h : a.NonlinearResultOf o (a.solverInput files N) r) : r = .error .valueError := by
  rw [solverInput_table a files N hr.images leds v hr.sorted hr.some_led hr.once hr.rows hr.reference pos hp] at h
  obtain ⟨rs, hall, rfl⟩ := h
  rw [List.forall₂_iff_get] at hall
  refine mapM_id_error_of _ _ ?_ ?_
  · intro e
    have := hall.1
    rw [e, List.length_map] at this
    exact firstImgs_ne_nil N hr.images (List.length_eq_zero_iff.1 this)
  · intro x hx
    obtain ⟨i, hi, rfl⟩ := List.getElem_of_mem hx
    have := hall.2 i (by rw [hall.1]; exact hi) hi
    have hl : (((firstImgs N).map (relOf a.ref N leds v)).get ⟨i, by rw [hall.1]; exact hi⟩).length = leds.length := by
      rw [List.get_eq_getElem, List.getElem_map]
      simp only [relOf, List.length_map]
    have hl2 : (distanceArray a.cam (layers a.lo a.hi a.layers) pos).length = a.ids.length := by
      rw [distanceArray_length, ledPositions_length _ _ _ hp]
    exact nonlinearImage_mismatch _ _ _ _ _ hd (by rw [hl, hl2]; exact fun e => hne e.symm) (by rw [hl]; exact h2) (by rw [hl2]; exact h1) this

/-! ### Merging -/

theorem mapM_flatten_length (arrays : List (List ℕ)) : ∀ (g : List ℕ) (parts : List (List ℕ)), g.mapM (fun i => arrays[i]?) = some parts →
    parts.flatten.length = (g.map fun i => ((arrays[i]?).getD []).length).sum
  | [], parts, h => by cases h; rfl
  | i :: g, parts, h => by
    rw [List.mapM_cons] at h
    cases hi : arrays[i]? with
    | none => rw [hi] at h; cases h
    | some y =>
      cases hl : g.mapM (fun i => arrays[i]?) with
      | none => rw [hi, hl] at h; cases h
      | some ys =>
        rw [hi, hl] at h
        cases h
        rw [List.flatten_cons, List.length_append, mapM_flatten_length arrays g ys hl, List.map_cons, List.sum_cons, hi]
        rfl

theorem sum_two_le (f : ℕ → ℕ) : ∀ (g : List ℕ) (k : ℕ), k ∈ g → 2 ≤ g.length → (∀ i ∈ g, 0 < f i) → f k < (g.map f).sum
  | [], _, h, _, _ => by cases h
  | i :: g, k, hk, h2, hpos => by
    rw [List.map_cons, List.sum_cons]
    rcases List.mem_cons.1 hk with rfl | hk
    · cases g with
      | nil => simp at h2
      | cons j g =>
        have := hpos j (by simp)
        rw [List.map_cons, List.sum_cons]
        omega
    · have h1 : f k ≤ (g.map f).sum := List.single_le_sum (by simp) _ (List.mem_map.2 ⟨k, hk, rfl⟩)
      have := hpos i (by simp)
      omega

/-- **C168 (merging).** The merged array `k` has more LEDs than the array `k` before, whenever it consists of array `k` and others. Step 3
before and analysis after merging (or the other way round) is therefore noticed. -/
theorem C168_merged (arrays : List (List ℕ)) (hne : ∀ x ∈ arrays, x ≠ []) (groups : List (List ℕ)) (hg : ∀ g ∈ groups, g ≠ [] ∧ ∀ i ∈ g, i < arrays.length)
    (k : ℕ) (g : List ℕ) (hk : groups[k]? = some g) (hmem : k ∈ g) (h2 : 2 ≤ g.length) :
    ∃ old new, arrays[k]? = some old ∧ (mergeArrays arrays (groups.map fun g => g.map (Nat.cast : ℕ → ℤ)))[k]? = some new ∧ old.length < new.length := by
  obtain ⟨parts, hp, hm⟩ := (C21_merged arrays hne groups hg).2 k g hk
  have hgk := (hg g (List.mem_of_getElem? hk)).2
  refine ⟨arrays[k]'(hgk k hmem), parts.flatten, List.getElem?_eq_getElem (hgk k hmem), hm, ?_⟩
  rw [mapM_flatten_length arrays g parts hp]
  have := sum_two_le (fun i => ((arrays[i]?).getD []).length) g k hmem h2 (by
    intro i hi
    rw [List.getElem?_eq_getElem (hgk i hi)]
    exact List.length_pos_iff.2 (hne _ (List.getElem_mem _)))
  simpa only [List.getElem?_eq_getElem (hgk k hmem), Option.getD_some] using this

/-- **C168 (the whole).** Recorded without merging, analysed with a group of array `k` and others: an error, whatever was measured. -/
theorem C168_merged_later (arrays : List (List ℕ)) (hne : ∀ x ∈ arrays, x ≠ []) (groups : List (List ℕ))
    (hg : ∀ g ∈ groups, g ≠ [] ∧ ∀ i ∈ g, i < arrays.length) (a : ArrayAnalysis) (g : List ℕ) (hk : groups[a.arr]? = some g) (hmem : a.arr ∈ g)
    (h2 : 2 ≤ g.length) (files : ℕ → List (ℕ × ℕ × ℝ)) (N : ℕ) (leds : List ℕ) (v : ℕ → ℕ → ℝ) (hr : RecordedAs a files N leds v)
    (hrec : ∃ old, arrays[a.arr]? = some old ∧ leds.Perm old)
    (hids : ∃ new, (mergeArrays arrays (groups.map fun g => g.map (Nat.cast : ℕ → ℤ)))[a.arr]? = some new ∧ a.ids = new.reverse)
    (pos : List P3) (hp : ledPositions a.coordinates a.ids = .ok pos) (r : Except PyErr (List (Fin a.layers → ℝ))) (h : a.Result files N r) :
    r = .error .valueError := by
  obtain ⟨old, new, h1, h3, hlt⟩ := C168_merged arrays hne groups hg a.arr g hk hmem h2
  obtain ⟨old', h4, hperm⟩ := hrec
  obtain ⟨new', h5, hid⟩ := hids
  rw [h1] at h4
  rw [h3] at h5
  cases h4
  cases h5
  refine C168_noticed a files N leds v hr pos hp ?_ r h
  rw [hid, List.length_reverse, hperm.length_eq]
  omega

/-! ### The same number of LEDs -/

/-- **C168 (what is calculated otherwise).** With the same number of LEDs the values are evaluated at the places of the other LEDs: the
result is that of any analysis whose array is at these places. -/
theorem C168_places (a : ArrayAnalysis) (coordinates : List P3) (ids : List ℕ) (pos : List P3) (hp : ledPositions a.coordinates a.ids = .ok pos)
    (hp' : ledPositions coordinates ids = .ok pos) (files : ℕ → List (ℕ × ℕ × ℝ)) (N : ℕ) (r : Except PyErr (List (Fin a.layers → ℝ))) :
    a.Result files N r ↔ ArrayAnalysis.Result { a with coordinates := coordinates, ids := ids } files N r := by
  unfold ArrayAnalysis.Result ArrayAnalysis.solverInput ArrayAnalysis.inputOf
  simp only [hp, hp']
  rfl

/-- **C168 (wrong coefficients).** One layer, no regularisation: the light of an array with path lengths `d` in smoke with the coefficient
`σ`, evaluated with the path lengths `c · d` of another array, gives the coefficient `σ / c`. -/
theorem C168_factor (d : List ℝ) (c s : ℝ) (hc : 0 < c) (hs : 0 ≤ s) (hd : ∀ x ∈ d, 0 ≤ x ∧ s * x ≤ 10 * Real.log 10) (hpos : ∃ x ∈ d, 0 < x) (σ : Fin 1 → ℝ)
    (h : LinearImage 1 (d.map fun x => some [c * x]) 0 (d.map fun x => Real.exp (-(s * x))) (.ok σ)) : σ 0 = s / c := by
  have hm : (d.map fun x => some [c * x]).mapM id = some (d.map fun x => [c * x]) := by
    clear h hd hpos
    induction d with
    | nil => rfl
    | cons x d ih => rw [List.map_cons, List.mapM_cons, ih]; rfl
  unfold LinearImage at h
  rw [hm] at h
  simp only [List.length_map, if_true] at h
  obtain ⟨σ', e, hsol⟩ := h
  cases e
  have hmin := hsol.minimal (fun _ => s / c) fun _ => by positivity
  have hzero : residual (augMatrix (distEntry (n := 1) (d.map fun x => [c * x])) 0)
      (augRhs 1 fun i : Fin (d.map fun x => [c * x]).length => (d.map fun x => Real.exp (-(s * x))).getD i 0) (fun _ => s / c) = 0 := by
    unfold residual
    refine Finset.sum_eq_zero ?_
    rintro (i | i) _
    · have hi : (i : ℕ) < d.length := by simpa using i.isLt
      have hx := hd _ (List.getElem_mem hi)
      simp only [augMatrix, augRhs, distEntry, Finset.univ_unique, Fin.default_eq_zero, Finset.sum_singleton, Fin.getElem_fin, List.getElem_map]
      have eg : (d.map fun x => Real.exp (-(s * x))).getD i 0 = Real.exp (-(s * d[(i : ℕ)])) := by
        rw [List.getD_eq_getElem?_getD, List.getElem?_map, List.getElem?_eq_getElem hi]; rfl
      rw [eg]
      rw [opticalDepth_exp (mul_nonneg hs hx.1) hx.2]
      simp
      field_simp
      ring
    · simp [augMatrix, augRhs]
  rw [hzero] at hmin
  obtain ⟨x, hx, hx0⟩ := hpos
  obtain ⟨i, hi, rfl⟩ := List.getElem_of_mem hx
  have hterm : (∑ l, augMatrix (distEntry (n := 1) (d.map fun x => [c * x])) 0 (.inl ⟨i, by simpa using hi⟩) l * σ l -
      augRhs 1 (fun i : Fin (d.map fun x => [c * x]).length => (d.map fun x => Real.exp (-(s * x))).getD i 0) (.inl ⟨i, by simpa using hi⟩)) ^ 2 ≤ 0 :=
    le_trans (Finset.single_le_sum (f := fun j => (∑ l, augMatrix (distEntry (n := 1) (d.map fun x => [c * x])) 0 j l * σ l -
      augRhs 1 (fun i : Fin (d.map fun x => [c * x]).length => (d.map fun x => Real.exp (-(s * x))).getD i 0) j) ^ 2)
      (fun j _ => sq_nonneg _) (Finset.mem_univ _)) hmin
  have h0 := pow_eq_zero_iff (two_ne_zero) |>.1 (le_antisymm hterm (sq_nonneg _))
  simp only [augMatrix, augRhs, distEntry, Finset.univ_unique, Fin.default_eq_zero, Finset.sum_singleton, Fin.getElem_fin, List.getElem_map] at h0
  have eg : (d.map fun x => Real.exp (-(s * x))).getD i 0 = Real.exp (-(s * d[i])) := by
    rw [List.getD_eq_getElem?_getD, List.getElem?_map, List.getElem?_eq_getElem hi]; rfl
  rw [eg] at h0
  rw [opticalDepth_exp (mul_nonneg hs (hd _ hx).1) (hd _ hx).2] at h0
  simp at h0
  have : d[i] * (c * σ 0 - s) = 0 := by linarith
  rcases mul_eq_zero.1 this with h | h
  · exact absurd h hx0.ne'
  · field_simp
    linarith

/-- There is such a result: the two LEDs of an array at 1 m and 2 m, smoke with the coefficient 1, evaluated with the places of an array at
2 m and 4 m. -/
example : ∃ σ : Fin 1 → ℝ, LinearImage 1 ([1, 2].map fun x => some [2 * x]) 0 ([1, 2].map fun x => Real.exp (-(1 * x))) (.ok σ) ∧ σ 0 = 1 / 2 := by
  have hl : (1 : ℝ) ≤ Real.log 10 := by
    rw [Real.le_log_iff_exp_le (by norm_num)]
    linarith [Real.exp_one_lt_d9]
  have e1 : opticalDepth (Real.exp (-1)) = 1 := opticalDepth_exp (by norm_num) (by linarith)
  have e2 : opticalDepth (Real.exp (-2)) = 2 := opticalDepth_exp (by norm_num) (by linarith)
  refine ⟨fun _ => 1 / 2, ⟨_, rfl, ⟨⟨fun _ => by norm_num, fun y _ => ?_⟩, fun h => ?_⟩⟩, rfl⟩
  · refine le_trans (le_of_eq ?_) (Finset.sum_nonneg fun i _ => sq_nonneg _)
    simp only [residual, augMatrix, augRhs, distEntry, Fintype.sum_sum_type]
    erw [Fin.sum_univ_two]
    simp [e1, e2]
    show ((2 : ℝ) * 2⁻¹ - 1) ^ 2 + ((2 * 2 : ℝ) * 2⁻¹ - 2) ^ 2 = 0
    norm_num
  · have := h 0
    simp only [augMatrix, augRhs, distEntry, Fintype.sum_sum_type] at this
    erw [Fin.sum_univ_two] at this
    simp [e1, e2] at this
    replace this : (2 : ℝ) + 2 * 2 * 2 ≤ 0 := this
    norm_num at this

/-- **C168 (refuted).** Groups that only rename arrays of the same size are not noticed: array 0 of the analysis then consists of the LEDs of
array 1, with the same number of LEDs as was recorded under number 0. -/
theorem C168_renamed_false (x y : List ℕ) (hx : x ≠ []) (hy : y ≠ []) (h : x.length = y.length) :
    mergeArrays [x, y] [[1], [0]] = [y, x] ∧ ((mergeArrays [x, y] [[1], [0]])[0]?.map List.length) = ([x, y][0]?).map List.length := by
  have e : mergeArrays [x, y] [[1], [0]] = [y, x] := by simp [mergeArrays, hx, hy]
  rw [e]
  exact ⟨rfl, by simp [h]⟩

example : mergeArrays [[0, 1], [2, 3]] [[1], [0]] = [[2, 3], [0, 1]] := by decide
example : mergeArrays [[0, 1], [2, 3]] [[0, 1]] = [[0, 1, 2, 3]] := by decide

end Ledsa
