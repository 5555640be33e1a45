import Verif.Model.SimParams
import Verif.Props.SimData
import Verif.Props.Extraction

/-! # C158: the LED curves of the post-processing are the light in the photos -/

namespace Ledsa

/-- Sum of the pixel values in the search area of an LED. -/
def areaSum (img : Image ℚ) (areas : List (ℤ × ℤ)) (R led : ℕ) : ℚ :=
  match areas[led]? with
  | some (r, c) => ∑ p ∈ area img r c R, img.px p.1 p.2
  | none => 0

/-- The value shown for photo `i` of `n`: the recorded value, or its ratio to the mean of the first `m` photos. -/
def shownValue (n : ℕ) (m : Option ℕ) (val : ℕ → ℚ) (i : ℕ) : Option ℚ :=
  match m with
  | none => some (val i)
  | some m => relTo ((List.range (min m n)).map fun k => val (k + 1)) (val i)

theorem eq_of_sorted_mem {a b : List ℕ} (ha : a.Pairwise (· < ·)) (hb : b.Pairwise (· < ·)) (h : ∀ x, x ∈ a ↔ x ∈ b) : a = b := by
  have p : a.Perm b := (List.perm_ext_iff_of_nodup (ha.imp (fun h => Nat.ne_of_lt h)) (hb.imp (fun h => Nat.ne_of_lt h))).2 h
  exact p.eq_of_pairwise (fun x y _ _ h1 h2 => absurd h1 (by omega)) ha hb

theorem filter_single {α : Type*} [DecidableEq α] {L : List α} (h : L.Nodup) {x : α} (hx : x ∈ L) : L.filter (fun y => y = x) = [x] := by
  induction L with
  | nil => cases hx
  | cons y L ih =>
    rw [List.nodup_cons] at h
    by_cases e : y = x
    · rw [List.filter_cons_of_pos (by simpa using e), e]
      congr 1
      rw [List.filter_eq_nil_iff]
      intro z hz
      simp only [decide_eq_true_eq]
      rintro rfl
      exact h.1 (e ▸ hz)
    · rw [List.filter_cons_of_neg (by simpa using e)]
      exact ih h.2 ((List.mem_cons.1 hx).resolve_left (fun q => e q.symm))

/-- The first array that has the LED. -/
def firstArray (arrays : List (List ℕ)) (led : ℕ) : ℕ := arrays.findIdx fun a => led ∈ a

theorem firstArray_eq {arrays : List (List ℕ)} (hd : ∀ (a b : ℕ) (l m : List ℕ) (led : ℕ), arrays[a]? = some l → arrays[b]? = some m → led ∈ l → led ∈ m → a = b)
    {a led : ℕ} {l : List ℕ} (h : arrays[a]? = some l) (hl : led ∈ l) : firstArray arrays led = a := by
  have hlt : firstArray arrays led < arrays.length := List.findIdx_lt_length.2 ⟨l, List.mem_of_getElem? h, by simpa using hl⟩
  have := List.findIdx_getElem (w := hlt)
  exact hd _ a _ l led (List.getElem?_eq_getElem hlt) h (of_decide_eq_true this) hl

/-- The rows of the table of parameters. -/
def parRows (n : ℕ) (L : List ℕ) (arrays : List (List ℕ)) (times : ℕ → ℤ) (val : ℕ → ℕ → ℚ) : List ParRow :=
  ((List.range n).map fun k => L.map fun led => (⟨times (k + 1), led, firstArray arrays led, val (k + 1) led⟩ : ParRow)).flatten

theorem experimentTimes_times (infos : List InfoRow) (times : ℕ → ℤ) (h : ∀ r ∈ infos, r.expTime = intStr (times r.idx)) :
    experimentTimes infos = .ok (infos.map fun r => times r.idx) := by
  unfold experimentTimes
  apply mapM_ok
  intro r hr
  rw [h r hr, pyInt_intStr]

theorem zip_map_self {α β : Type*} (l : List α) (g : α → β) : l.zip (l.map g) = l.map fun x => (x, g x) := by
  induction l with
  | nil => rfl
  | cons a l ih => simp [ih]

theorem zip_filter_idx (infos : List InfoRow) (hi : GoodInfos infos) (times : ℕ → ℤ) (k : ℕ) (hk : k < infos.length) (q : Cell)
    (hq : q = some ((k + 1 : ℕ) : ℚ)) :
    ((infos.zip (infos.map fun r => times r.idx)).filter fun p => some q = some (some (p.1.idx : ℚ))) = [(infos[k], times (k + 1))] := by
  subst hq
  have hz : infos.zip (infos.map fun r => times r.idx) = infos.map fun r => (r, times r.idx) := by
    exact zip_map_self infos fun r => times r.idx
  have hidx : (infos.map (·.idx)) = (List.range infos.length).map (· + 1) := by
    apply List.ext_getElem (by simp)
    intro j h1 h2
    simp [hi.idx j (by simpa using h1)]
  rw [hz, List.filter_map]
  have hnd : infos.Nodup := by
    refine List.Nodup.of_map (·.idx) ?_
    rw [hidx]
    exact List.nodup_range.map (fun a b h => by omega)
  have : infos.filter ((fun p : InfoRow × ℤ => decide (some (some ((k + 1 : ℕ) : ℚ)) = some (some (p.1.idx : ℚ)))) ∘ fun r => (r, times r.idx)) = [infos[k]] := by
    have e : ∀ r ∈ infos, ((fun p : InfoRow × ℤ => decide (some (some ((k + 1 : ℕ) : ℚ)) = some (some (p.1.idx : ℚ)))) ∘ fun r => (r, times r.idx)) r
        = decide (r = infos[k]) := by
      intro r hr
      obtain ⟨j, hj, rfl⟩ := List.mem_iff_getElem.1 hr
      simp only [Function.comp, Option.some.injEq, Nat.cast_inj, hi.idx j hj]
      rw [decide_eq_decide]
      rw [hnd.getElem_inj_iff]
      omega
    rw [List.filter_congr e]
    exact filter_single hnd (List.getElem_mem _)
  rw [this]
  simp [hi.idx k hk]

theorem parRows_table (w : HdfWorld) (ch n : ℕ) (hcount : w.count w.cwd = .ok (n : ℤ)) (hn : 0 < n) (hw : w.cache = none)
    (infos : List InfoRow) (hi : GoodInfos infos) (hlen : n ≤ infos.length) (root : Str) (hroot : '\n' ∉ root)
    (areas : List (ℤ × ℤ)) (R skip : ℕ) (arrays : List (List ℕ)) (hnodup : (ledsOf skip arrays).Nodup)
    (htwo : 2 ≤ (ledsOf skip arrays).length) (img : ℕ → Image ℚ) (hp : ∀ i, GoodPhoto (img i) areas R skip arrays)
    (files : ℕ → Option Str)
    (hf : ∀ i, 1 ≤ i → i ≤ n →
      files i = (step3Text (infoFile infos) root ch areas R skip arrays (img i) none (natStr i)).toOption)
    (c : Option (List (ℕ × List ℚ × ℚ × ℚ))) (hc : w.coord w.cwd = c.map asCoord)
    (hc2 : ∀ c', c = some c' → 2 ≤ c'.length ∧ ∃ m, ∀ r ∈ c', r.2.1.length = m)
    (hgc : ∀ c', c = some c' → (c'.map (·.1)).Pairwise (· < ·) ∧ ∀ i ∈ ledsOf skip arrays, i ∈ c'.map (·.1))
    (hd : ∀ (a b : ℕ) (l m : List ℕ) (led : ℕ), arrays[a]? = some l → arrays[b]? = some m → led ∈ l → led ∈ m → a = b)
    (times : ℕ → ℤ) (ht : ∀ r ∈ infos, r.expTime = intStr (times r.idx)) :
    ∃ (f : DataTable) (L : List ℕ), textFrame w ch files = .ok f ∧ L.Pairwise (· < ·) ∧ (∀ led, led ∈ L ↔ led ∈ ledsOf skip arrays) ∧
      ledParamTable f "sum_col_val" infos = .ok (parRows n L arrays times fun i led => sciVal (areaSum (img i) areas R led)) := by
  obtain ⟨f, rows, hfr, hcols, hrows, hr⟩ := C101_values w ch n hcount hn hw infos hi hlen root hroot areas R skip arrays hnodup htwo img hp
    files hf c hc hc2 hgc
  choose! l l1 l2 l3 l4 using hr
  have hL : ∀ i, 1 ≤ i → i ≤ n → (l i).map (·.1) = (l 1).map (·.1) := fun i h1 h2 =>
    eq_of_sorted_mem (l2 i h1 h2) (l2 1 le_rfl (by omega)) (fun x => (l3 i h1 h2 x).trans (l3 1 le_rfl (by omega) x).symm)
  refine ⟨f, (l 1).map (·.1), hfr, l2 1 le_rfl (by omega), l3 1 le_rfl (by omega), ?_⟩
  unfold ledParamTable
  rw [experimentTimes_times infos times ht]
  simp only [bind, Except.bind]
  rw [if_neg (by rw [hcols]; decide)]
  congr 1
  rw [hrows]
  have hcol : f.cols.idxOf "sum_col_val" = 3 := by rw [hcols]; decide
  rw [hcol]
  unfold parRows
  rw [List.map_flatten, List.flatten_flatten, List.map_map, List.map_map]
  congr 1
  apply List.map_congr_left
  intro k hk
  rw [List.mem_range] at hk
  simp only [Function.comp]
  rw [l1 (k + 1) (by omega) (by omega), ← hL (k + 1) (by omega) (by omega), List.map_map, List.map_map]
  trans (((l (k + 1)).map fun r => [(⟨times (k + 1), r.1, firstArray arrays r.1, sciVal (areaSum (img (k + 1)) areas R r.1)⟩ : ParRow)]).flatten)
  swap
  · rw [← List.flatMap_def, ← List.map_eq_flatMap]; rfl
  congr 1
  apply List.map_congr_left
  rintro ⟨led, v, x, y⟩ hm
  obtain ⟨arr, ids, r, cc, s, μ, m, rfl, ha, hin, har, -, -, -, -, hs⟩ := (l4 (k + 1) (by omega) (by omega) led v x y hm).1
  simp only [Function.comp, List.head?_cons, List.map_cons, List.map_nil, List.cons_append]
  rw [zip_filter_idx infos hi times k (by omega) _ rfl]
  simp only [List.filterMap_cons, List.filterMap_nil, parRowOf, cellNat]
  simp [firstArray_eq hd ha hin, areaSum, har, hs]

theorem parRows_array (n : ℕ) (L : List ℕ) (arrays : List (List ℕ)) (times : ℕ → ℤ) (val : ℕ → ℕ → ℚ) (a : ℕ) :
    (parRows n L arrays times val).filter (fun r => r.array = a) =
      parRows n (L.filter fun led => firstArray arrays led = a) arrays times val := by
  unfold parRows
  rw [List.filter_flatten, List.map_map]
  congr 1
  apply List.map_congr_left
  intro k _
  simp only [Function.comp]
  rw [List.filter_map]
  rfl

theorem parRows_led (n : ℕ) (L : List ℕ) (hL : L.Nodup) (arrays : List (List ℕ)) (times : ℕ → ℤ) (val : ℕ → ℕ → ℚ) (led : ℕ) (h : led ∈ L) :
    (parRows n L arrays times val).filter (fun r => r.led = led) =
      (List.range n).map fun k => ⟨times (k + 1), led, firstArray arrays led, val (k + 1) led⟩ := by
  trans ((List.range n).map fun k => [(⟨times (k + 1), led, firstArray arrays led, val (k + 1) led⟩ : ParRow)]).flatten
  swap
  · rw [← List.flatMap_def, ← List.map_eq_flatMap]
  unfold parRows
  rw [List.filter_flatten, List.map_map]
  congr 1
  apply List.map_congr_left
  intro k _
  simp only [Function.comp]
  rw [List.filter_map]
  have : L.filter ((fun r : ParRow => decide (r.led = led)) ∘ fun led => (⟨times (k + 1), led, firstArray arrays led, val (k + 1) led⟩ : ParRow)) = [led] :=
    filter_single hL h
  rw [this]; rfl

theorem valuesOf_parRows (n : ℕ) (L : List ℕ) (hL : L.Nodup) (arrays : List (List ℕ)) (times : ℕ → ℤ) (val : ℕ → ℕ → ℚ) (led : ℕ) (h : led ∈ L) :
    valuesOf (parRows n L arrays times val) led = (List.range n).map fun k => val (k + 1) led := by
  unfold valuesOf
  rw [parRows_led n L hL arrays times val led h, List.map_map]
  rfl

theorem mem_parRows {n : ℕ} {L : List ℕ} {arrays : List (List ℕ)} {times : ℕ → ℤ} {val : ℕ → ℕ → ℚ} {r : ParRow} :
    r ∈ parRows n L arrays times val ↔ ∃ i led, 1 ≤ i ∧ i ≤ n ∧ led ∈ L ∧ r = ⟨times i, led, firstArray arrays led, val i led⟩ := by
  unfold parRows
  simp only [List.mem_flatten, List.mem_map, List.mem_range]
  constructor
  · rintro ⟨_, ⟨k, hk, rfl⟩, hr⟩
    obtain ⟨led, hl, rfl⟩ := List.mem_map.1 hr
    exact ⟨k + 1, led, by omega, by omega, hl, rfl⟩
  · rintro ⟨i, led, h1, h2, hl, rfl⟩
    refine ⟨_, ⟨i - 1, by omega, rfl⟩, ?_⟩
    rw [List.mem_map]
    exact ⟨led, hl, by rw [show i - 1 + 1 = i from by omega]⟩

theorem parRows_keys (n : ℕ) (L : List ℕ) (hL : L.Nodup) (arrays : List (List ℕ)) (times : ℕ → ℤ) (val : ℕ → ℕ → ℚ) (delta : ℤ) (hne : L ≠ []) :
    ((parRows n L arrays times val).map fun r => (r.time + delta, r.led)).Nodup ↔
      ∀ i j, 1 ≤ i → i ≤ n → 1 ≤ j → j ≤ n → times i = times j → i = j := by
  have e : ((parRows n L arrays times val).map fun r => (r.time + delta, r.led)) =
      ((List.range n).map fun k => L.map fun led => (times (k + 1) + delta, led)).flatten := by
    unfold parRows
    rw [List.map_flatten, List.map_map]
    simp [Function.comp_def]
  rw [e, List.nodup_flatten]
  constructor
  · rintro ⟨-, h⟩ i j h1 h2 h3 h4 ht
    rw [List.pairwise_map] at h
    obtain ⟨x, hx⟩ := List.exists_mem_of_ne_nil L hne
    by_contra hij
    have hp : ∀ a b, a < n → b < n → a < b → times (a + 1) = times (b + 1) → False := by
      intro a b ha hb hab hh
      have := List.pairwise_iff_getElem.1 h a b (by simpa using ha) (by simpa using hb) hab
      simp only [List.getElem_range] at this
      exact this (List.mem_map.2 ⟨x, hx, rfl⟩) (List.mem_map.2 ⟨x, hx, by rw [hh]⟩)
    rcases Nat.lt_or_gt_of_ne hij with h | h
    · exact hp (i - 1) (j - 1) (by omega) (by omega) (by omega) (by rw [show i - 1 + 1 = i from by omega, show j - 1 + 1 = j from by omega, ht])
    · exact hp (j - 1) (i - 1) (by omega) (by omega) (by omega) (by rw [show i - 1 + 1 = i from by omega, show j - 1 + 1 = j from by omega, ht])
  · intro h
    refine ⟨?_, ?_⟩
    · intro l hl
      obtain ⟨k, -, rfl⟩ := List.mem_map.1 hl
      exact hL.map (fun a b h => (Prod.ext_iff.1 h).2)
    · rw [List.pairwise_map]
      refine List.Pairwise.imp_of_mem ?_ List.nodup_range
      intro a b ha hb hab
      rw [List.mem_range] at ha hb
      intro x hx hy
      obtain ⟨_, _, rfl⟩ := List.mem_map.1 hx
      obtain ⟨_, _, hh⟩ := List.mem_map.1 hy
      have := (Prod.ext_iff.1 hh).1
      exact hab (by have := h (a + 1) (b + 1) (by omega) (by omega) (by omega) (by omega) (by simp only at this; omega); omega)

/-- The LEDs of an array that are analysed. -/
def shownLeds (skip : ℕ) (arrays : List (List ℕ)) (a led : ℕ) : Prop := led ∈ ledsOf skip arrays ∧ ∃ ids, arrays[a]? = some ids ∧ led ∈ ids

theorem mem_firstArray {skip : ℕ} {arrays : List (List ℕ)}
    (hd : ∀ (a b : ℕ) (l m : List ℕ) (led : ℕ), arrays[a]? = some l → arrays[b]? = some m → led ∈ l → led ∈ m → a = b)
    {a led : ℕ} (h : led ∈ ledsOf skip arrays) : firstArray arrays led = a ↔ ∃ ids, arrays[a]? = some ids ∧ led ∈ ids := by
  constructor
  · rintro rfl
    obtain ⟨⟨l, hl, hm⟩, -⟩ := mem_ledsOf.1 h
    have hlt : firstArray arrays led < arrays.length := List.findIdx_lt_length.2 ⟨l, hl, by simpa using hm⟩
    have := List.findIdx_getElem (w := hlt)
    exact ⟨_, List.getElem?_eq_getElem hlt, of_decide_eq_true this⟩
  · rintro ⟨ids, h1, h2⟩
    exact firstArray_eq hd h1 h2

theorem take_map_range {α : Type*} (m n : ℕ) (g : ℕ → α) : ((List.range n).map g).take m = (List.range (min m n)).map g := by
  rw [← List.map_take, List.take_range]

/-- **C158.** The table of parameters exists exactly if no two photos of the analysis have the same time in seconds; its cells are
those of the analysed LEDs of the array and of the photos 1 to `n`, at the experiment time of the photo plus the shift, with the
sum of the pixel values in the search area (to five digits), or its ratio to the mean over the reference photos. -/
theorem C158_curves (w : HdfWorld) (ch n : ℕ) (hcount : w.count w.cwd = .ok (n : ℤ)) (hn : 0 < n) (hw : w.cache = none)
    (infos : List InfoRow) (hi : GoodInfos infos) (hlen : n ≤ infos.length) (root : Str) (hroot : '\n' ∉ root)
    (areas : List (ℤ × ℤ)) (R skip : ℕ) (arrays : List (List ℕ)) (hnodup : (ledsOf skip arrays).Nodup)
    (htwo : 2 ≤ (ledsOf skip arrays).length) (img : ℕ → Image ℚ) (hp : ∀ i, GoodPhoto (img i) areas R skip arrays)
    (files : ℕ → Option Str)
    (hf : ∀ i, 1 ≤ i → i ≤ n →
      files i = (step3Text (infoFile infos) root ch areas R skip arrays (img i) none (natStr i)).toOption)
    (c : Option (List (ℕ × List ℚ × ℚ × ℚ))) (hc : w.coord w.cwd = c.map asCoord)
    (hc2 : ∀ c', c = some c' → 2 ≤ c'.length ∧ ∃ m, ∀ r ∈ c', r.2.1.length = m)
    (hgc : ∀ c', c = some c' → (c'.map (·.1)).Pairwise (· < ·) ∧ ∀ i ∈ ledsOf skip arrays, i ∈ c'.map (·.1))
    (hd : ∀ (a b : ℕ) (l m : List ℕ) (led : ℕ), arrays[a]? = some l → arrays[b]? = some m → led ∈ l → led ∈ m → a = b)
    (times : ℕ → ℤ) (ht : ∀ r ∈ infos, r.expTime = intStr (times r.idx))
    (numRef : ℕ) (nRef : Option ℕ) (delta : ℤ) (a : ℕ) (ha : ∃ led, shownLeds skip arrays a led) :
    ∃ (f : DataTable) (rows : List ParRow), textFrame w ch files = .ok f ∧ ledParamTable f "sum_col_val" infos = .ok rows ∧
      ((∀ i j, 1 ≤ i → i ≤ n → 1 ≤ j → j ≤ n → times i = times j → i = j) →
        ∃ out, ledParamsAtArray numRef nRef delta a rows = .ok out ∧ ∀ t led q, (t, led, q) ∈ out ↔ shownLeds skip arrays a led ∧
          ∃ i, 1 ≤ i ∧ i ≤ n ∧ t = times i + delta ∧
            q = shownValue n (refNumber numRef nRef) (fun i => sciVal (areaSum (img i) areas R led)) i) ∧
      ((¬ ∀ i j, 1 ≤ i → i ≤ n → 1 ≤ j → j ≤ n → times i = times j → i = j) →
        ledParamsAtArray numRef nRef delta a rows = .error .valueError) := by
  obtain ⟨f, L, h1, h2, h3, h4⟩ := parRows_table w ch n hcount hn hw infos hi hlen root hroot areas R skip arrays hnodup htwo img hp
    files hf c hc hc2 hgc hd times ht
  refine ⟨f, _, h1, h4, ?_⟩
  generalize hval : (fun (i led : ℕ) => sciVal (areaSum (img i) areas R led)) = val
  have hval' : ∀ i led, sciVal (areaSum (img i) areas R led) = val i led := fun i led => by rw [← hval]
  have hLn : L.Nodup := h2.imp (fun h => Nat.ne_of_lt h)
  have hM : ∀ led, led ∈ L.filter (fun led => firstArray arrays led = a) ↔ shownLeds skip arrays a led := by
    intro led
    rw [List.mem_filter, h3]
    constructor
    · rintro ⟨x, y⟩
      exact ⟨x, (mem_firstArray hd x).1 (by simpa using y)⟩
    · rintro ⟨x, y⟩
      exact ⟨x, by simpa using (mem_firstArray hd x).2 y⟩
  have hMn := hLn.filter (fun led => decide (firstArray arrays led = a))
  generalize hMM : L.filter (fun led => decide (firstArray arrays led = a)) = M at hM hMn
  have hne : M ≠ [] := by
    obtain ⟨led, hled⟩ := ha
    exact List.ne_nil_of_mem ((hM led).2 hled)
  have key := parRows_keys n M hMn arrays times val delta hne
  have hout : ∀ g : ParRow → Option ℚ, (((parRows n M arrays times val).map fun r => (r.time + delta, r.led, g r)).map
      fun r => (r.1, r.2.1)) = (parRows n M arrays times val).map fun r => (r.time + delta, r.led) := by
    intro g; rw [List.map_map]; rfl
  unfold ledParamsAtArray
  simp only
  rw [parRows_array, hMM]
  constructor
  · intro hinj
    cases hr : refNumber numRef nRef with
    | none =>
      simp only
      unfold pivotRows
      rw [hout fun r => some r.val, if_pos (key.2 hinj)]
      refine ⟨_, rfl, ?_⟩
      intro t led q
      simp only [List.mem_map, mem_parRows, shownValue, hval', ← hM]
      constructor
      · rintro ⟨r, ⟨i, l, h1, h2, h3, rfl⟩, e⟩
        cases e
        exact ⟨h3, i, h1, h2, rfl, rfl⟩
      · rintro ⟨h3, i, h1, h2, rfl, rfl⟩
        exact ⟨_, ⟨i, led, h1, h2, h3, rfl⟩, rfl⟩
    | some m =>
      simp only
      unfold pivotRows
      rw [hout fun r => relTo ((valuesOf (parRows n M arrays times val) r.led).take m) r.val, if_pos (key.2 hinj)]
      refine ⟨_, rfl, ?_⟩
      intro t led q
      simp only [List.mem_map, mem_parRows, shownValue, hval', ← hM]
      constructor
      · rintro ⟨r, ⟨i, l, h1, h2, h3, rfl⟩, e⟩
        cases e
        refine ⟨h3, i, h1, h2, rfl, ?_⟩
        rw [valuesOf_parRows n M hMn arrays times val l h3, take_map_range]
      · rintro ⟨h3, i, h1, h2, rfl, rfl⟩
        refine ⟨_, ⟨i, led, h1, h2, h3, rfl⟩, ?_⟩
        rw [valuesOf_parRows n M hMn arrays times val led h3, take_map_range]
  · intro hinj
    split
    · unfold pivotRows
      rw [hout fun r => some r.val, if_neg (fun h => hinj (key.1 h))]
    · unfold pivotRows
      rw [hout fun r => relTo ((valuesOf (parRows n M arrays times val) r.led).take _) r.val, if_neg (fun h => hinj (key.1 h))]

/-- **C158.** The curve of a single LED: one point for each photo in order, also if photos share a second; at the time of the photo
(without the shift). -/
theorem C158_single (w : HdfWorld) (ch n : ℕ) (hcount : w.count w.cwd = .ok (n : ℤ)) (hn : 0 < n) (hw : w.cache = none)
    (infos : List InfoRow) (hi : GoodInfos infos) (hlen : n ≤ infos.length) (root : Str) (hroot : '\n' ∉ root)
    (areas : List (ℤ × ℤ)) (R skip : ℕ) (arrays : List (List ℕ)) (hnodup : (ledsOf skip arrays).Nodup)
    (htwo : 2 ≤ (ledsOf skip arrays).length) (img : ℕ → Image ℚ) (hp : ∀ i, GoodPhoto (img i) areas R skip arrays)
    (files : ℕ → Option Str)
    (hf : ∀ i, 1 ≤ i → i ≤ n →
      files i = (step3Text (infoFile infos) root ch areas R skip arrays (img i) none (natStr i)).toOption)
    (c : Option (List (ℕ × List ℚ × ℚ × ℚ))) (hc : w.coord w.cwd = c.map asCoord)
    (hc2 : ∀ c', c = some c' → 2 ≤ c'.length ∧ ∃ m, ∀ r ∈ c', r.2.1.length = m)
    (hgc : ∀ c', c = some c' → (c'.map (·.1)).Pairwise (· < ·) ∧ ∀ i ∈ ledsOf skip arrays, i ∈ c'.map (·.1))
    (hd : ∀ (a b : ℕ) (l m : List ℕ) (led : ℕ), arrays[a]? = some l → arrays[b]? = some m → led ∈ l → led ∈ m → a = b)
    (times : ℕ → ℤ) (ht : ∀ r ∈ infos, r.expTime = intStr (times r.idx)) (numRef : ℕ) (nRef : Option ℕ) :
    ∃ (f : DataTable) (rows : List ParRow), textFrame w ch files = .ok f ∧ ledParamTable f "sum_col_val" infos = .ok rows ∧
      ∀ led ∈ ledsOf skip arrays, ledParamsAtId numRef nRef led rows = (List.range n).map fun k =>
        (times (k + 1), shownValue n (refNumber numRef nRef) (fun i => sciVal (areaSum (img i) areas R led)) (k + 1)) := by
  obtain ⟨f, L, h1, h2, h3, h4⟩ := parRows_table w ch n hcount hn hw infos hi hlen root hroot areas R skip arrays hnodup htwo img hp
    files hf c hc hc2 hgc hd times ht
  refine ⟨f, _, h1, h4, ?_⟩
  intro led hled
  unfold ledParamsAtId
  simp only
  rw [parRows_led n L (h2.imp (fun h => Nat.ne_of_lt h)) arrays times _ led ((h3 led).2 hled)]
  cases hr : refNumber numRef nRef with
  | none => simp only [List.map_map, shownValue]; rfl
  | some m =>
    simp only [List.map_map, shownValue]
    apply List.map_congr_left
    intro k _
    simp only [Function.comp]
    rw [← take_map_range]
    rfl

theorem sum_map_range (m : ℕ) (g : ℕ → ℚ) : ((List.range m).map g).sum = ∑ k ∈ Finset.range m, g k := by
  induction m with
  | zero => rfl
  | succ m ih => rw [List.range_succ, List.map_append, List.sum_append, ih, Finset.sum_range_succ]; simp

/-- **C158.** Recorded sums below 100000 are exact: the relative value is then the ratio of the light in the photo to the mean
light in the reference photos. -/
theorem C158_exact (n m : ℕ) (img : ℕ → Image ℚ) (areas : List (ℤ × ℤ)) (R led : ℕ) (hm : 1 ≤ m) (hn : 1 ≤ n)
    (hint : ∀ i, 1 ≤ i → i ≤ n → ∃ v : ℕ, areaSum (img i) areas R led = v) (hsmall : ∀ i, 1 ≤ i → i ≤ n → areaSum (img i) areas R led < 100000)
    (hpos : 0 < areaSum (img 1) areas R led) (i : ℕ) (hi : 1 ≤ i) (hin : i ≤ n) :
    shownValue n (some m) (fun i => sciVal (areaSum (img i) areas R led)) i =
      some (areaSum (img i) areas R led / ((∑ k ∈ Finset.range (min m n), areaSum (img (k + 1)) areas R led) / (min m n : ℕ))) := by
  have hex : ∀ j, 1 ≤ j → j ≤ n → sciVal (areaSum (img j) areas R led) = areaSum (img j) areas R led := by
    intro j h1 h2
    obtain ⟨v, hv⟩ := hint j h1 h2
    have hs := hsmall j h1 h2
    rw [hv] at hs ⊢
    obtain ⟨u, hu, hu'⟩ := sciVal_nat v
    rw [hu, hu' (by exact_mod_cast hs)]
  have hmap : ((List.range (min m n)).map fun k => sciVal (areaSum (img (k + 1)) areas R led)) =
      (List.range (min m n)).map fun k => areaSum (img (k + 1)) areas R led := by
    apply List.map_congr_left
    intro k hk
    rw [List.mem_range] at hk
    exact hex (k + 1) (by omega) (by omega)
  have hge : ∀ j, 1 ≤ j → j ≤ n → 0 ≤ areaSum (img j) areas R led := by
    intro j h1 h2
    obtain ⟨v, hv⟩ := hint j h1 h2
    rw [hv]; positivity
  have hmean : meanQ ((List.range (min m n)).map fun k => areaSum (img (k + 1)) areas R led) =
      (∑ k ∈ Finset.range (min m n), areaSum (img (k + 1)) areas R led) / (min m n : ℕ) := by
    unfold meanQ
    rw [sum_map_range, List.length_map, List.length_range]
  have hpos' : 0 < (∑ k ∈ Finset.range (min m n), areaSum (img (k + 1)) areas R led) / (min m n : ℕ) := by
    apply div_pos
    · apply Finset.sum_pos'
      · intro k hk
        rw [Finset.mem_range] at hk
        exact hge _ (by omega) (by omega)
      · exact ⟨0, Finset.mem_range.2 (by omega), hpos⟩
    · exact_mod_cast (by omega : 0 < min m n)
  unfold shownValue
  simp only
  rw [hmap, hex i hi hin]
  unfold relTo
  rw [hmean, if_neg]
  rw [not_or]
  refine ⟨?_, hpos'.ne'⟩
  intro h
  have := congrArg List.length h
  simp at this
  omega

/-- The table of two photos of the strip: LED 1 of array 0, LED 0 of array 1. -/
def stripTable : DataTable := ⟨["img_id", "led_id", "led_array_id", "sum_col_val", "mean_col_val", "max_col_val", "width", "height"],
  [[some 1, some 0, some 1, some 12, some 3, some 4, none, none], [some 1, some 1, some 0, some 80, some 20, some 25, none, none],
   [some 2, some 0, some 1, some 12, some 3, some 4, none, none], [some 2, some 1, some 0, some 60, some 15, some 20, none, none]]⟩

/-- Times of its photos. -/
def stripTimes (a b : String) : List InfoRow := [⟨1, "a.jpg".toList, [], a.toList⟩, ⟨2, "b.jpg".toList, [], b.toList⟩]

/-- In the second photo LED 1 has 60/80 of its light; two photos in the same second give an error. -/
example : (ledParamTable stripTable "sum_col_val" (stripTimes "-3" "7")).bind (ledParamsAtArray 1 none 5 0) =
      .ok [(2, 1, some 1), (12, 1, some (3 / 4))] := by decide +kernel

example : (ledParamTable stripTable "max_col_val" (stripTimes "-3" "7")).bind (ledParamsAtArray 1 (some 0) 0 0) =
      .ok [(-3, 1, some 25), (7, 1, some 20)] ∧
    (ledParamTable stripTable "sum_col_val" (stripTimes "7" "7")).bind (ledParamsAtArray 1 none 5 0) = .error .valueError := by decide +kernel

example : ledParamTable stripTable "fit" (stripTimes "7" "8") = .error .keyError := by decide +kernel

/-- A photo that is not in the list of images has no row. -/
example : (ledParamTable stripTable "sum_col_val" [⟨2, "b.jpg".toList, [], "7".toList⟩]).map (fun l => l.map (·.val)) = .ok [12, 60] := by
  decide +kernel

end Ledsa
