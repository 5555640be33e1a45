import Verif.Model.Plots
import Verif.Props.Session
import Verif.Props.Numbering
import Mathlib.Algebra.Order.Group.Unbundled.Abs
/-
C179: what the plots of steps 1 and 2 show, and whether they are up to date.
-/
namespace Ledsa

/-! ### What the plots of the search areas show -/

theorem foldl_min_le {α : Type} (f : α → ℤ) : ∀ (l : List α) (a : ℤ), l.foldl (fun a k => min a (f k)) a ≤ a ∧
    ∀ k ∈ l, l.foldl (fun a k => min a (f k)) a ≤ f k := by
  intro l
  induction l with
  | nil => intro a; exact ⟨Int.le_refl _, by simp⟩
  | cons x l ih =>
    intro a
    obtain ⟨h1, h2⟩ := ih (min a (f x))
    refine ⟨by simp only [List.foldl_cons]; omega, ?_⟩
    intro k hk
    rcases List.mem_cons.1 hk with rfl | hk
    · simp only [List.foldl_cons]; omega
    · exact h2 k hk

theorem le_foldl_max {α : Type} (f : α → ℤ) : ∀ (l : List α) (a : ℤ), a ≤ l.foldl (fun a k => max a (f k)) a ∧
    ∀ k ∈ l, f k ≤ l.foldl (fun a k => max a (f k)) a := by
  intro l
  induction l with
  | nil => intro a; exact ⟨Int.le_refl _, by simp⟩
  | cons x l ih =>
    intro a
    obtain ⟨h1, h2⟩ := ih (max a (f x))
    refine ⟨by simp only [List.foldl_cons]; omega, ?_⟩
    intro k hk
    rcases List.mem_cons.1 hk with rfl | hk
    · simp only [List.foldl_cons]; omega
    · exact h2 k hk

/-- A point is within the limits of a plot; the vertical axis points downwards as in the photo. -/
def AreaPlot.Within (p : AreaPlot) (x y : ℤ) : Prop := p.xlim.1 ≤ x ∧ x ≤ p.xlim.2 ∧ p.ylim.2 ≤ y ∧ y ≤ p.ylim.1

/-- The plot shows the LEDs of a table: as many circles as LEDs, one around the pixel of each LED with its id as label, and no others. -/
def ShowsTable (p : AreaPlot) (t : LedTable) : Prop :=
  p.marks.length = t.length ∧ ∀ (k : ℕ) (row col : ℤ) (id : ℕ), t[k]? = some (id, row, col) →
    ∃ q : ℤ × ℤ, p.marks[k]? = some ⟨(col, row), q, natStr id⟩

/-- **C179 (circles).** A plot of search areas shows all LEDs of the table and no others, each at its pixel with its id. All circles with
their surroundings of four further radii and the beginnings of all labels are within the plot. There is a plot unless the table is empty. -/
theorem C179_marks (R : ℤ) (hR : 0 ≤ R) (t : LedTable) :
    (areaPlot R t = none ↔ t = []) ∧ ∀ p, areaPlot R t = some p → ShowsTable p t ∧
      ∀ m ∈ p.marks, p.Within m.labelAt.1 m.labelAt.2 ∧ ∀ x y : ℤ, |x - m.centre.1| ≤ 5 * R → |y - m.centre.2| ≤ 5 * R → p.Within x y := by
  cases t with
  | nil => exact ⟨⟨fun _ => rfl, fun _ => rfl⟩, by intro p h; cases h⟩
  | cons l t =>
    refine ⟨⟨fun h => by (cases h), fun h => by (cases h)⟩, ?_⟩
    intro p h
    simp only [areaPlot, Option.some.injEq] at h
    subst h
    refine ⟨⟨by simp [ledMarks], ?_⟩, ?_⟩
    · intro k row col id hk
      refine ⟨(col + R, row + R / 2), ?_⟩
      show (ledMarks R (l :: t))[k]? = _
      unfold ledMarks
      rw [List.getElem?_map, hk]
      rfl
    · intro m hm
      obtain ⟨j, hj, rfl⟩ := List.mem_map.1 hm
      have hx1 : t.foldl (fun a k => min a k.2.2) l.2.2 ≤ j.2.2 := by
        rcases List.mem_cons.1 hj with rfl | hj
        · exact (foldl_min_le (fun k : ℕ × ℤ × ℤ => k.2.2) t _).1
        · exact (foldl_min_le (fun k : ℕ × ℤ × ℤ => k.2.2) t _).2 j hj
      have hx2 : j.2.2 ≤ t.foldl (fun a k => max a k.2.2) l.2.2 := by
        rcases List.mem_cons.1 hj with rfl | hj
        · exact (le_foldl_max (fun k : ℕ × ℤ × ℤ => k.2.2) t _).1
        · exact (le_foldl_max (fun k : ℕ × ℤ × ℤ => k.2.2) t _).2 j hj
      have hy1 : t.foldl (fun a k => min a k.2.1) l.2.1 ≤ j.2.1 := by
        rcases List.mem_cons.1 hj with rfl | hj
        · exact (foldl_min_le (fun k : ℕ × ℤ × ℤ => k.2.1) t _).1
        · exact (foldl_min_le (fun k : ℕ × ℤ × ℤ => k.2.1) t _).2 j hj
      have hy2 : j.2.1 ≤ t.foldl (fun a k => max a k.2.1) l.2.1 := by
        rcases List.mem_cons.1 hj with rfl | hj
        · exact (le_foldl_max (fun k : ℕ × ℤ × ℤ => k.2.1) t _).1
        · exact (le_foldl_max (fun k : ℕ × ℤ × ℤ => k.2.1) t _).2 j hj
      refine ⟨?_, ?_⟩
      · simp only [AreaPlot.Within]
        omega
      · intro x y hx hy
        rw [abs_le] at hx hy
        simp only [AreaPlot.Within] at *
        omega

/-- **C179 (labels).** If the ids of the table differ, a label belongs to one LED only. -/
theorem C179_labels (t : LedTable) (hids : (t.map (·.1)).Nodup) (p : AreaPlot) (h : ShowsTable p t) (i j : ℕ) (a b : LedMark)
    (ha : p.marks[i]? = some a) (hb : p.marks[j]? = some b) (hl : a.label = b.label) : i = j := by
  have hi : i < t.length := by rw [← h.1]; exact (List.getElem?_eq_some_iff.1 ha).1
  have hj : j < t.length := by rw [← h.1]; exact (List.getElem?_eq_some_iff.1 hb).1
  obtain ⟨_, h1⟩ := h.2 i t[i].2.1 t[i].2.2 t[i].1 (List.getElem?_eq_getElem hi)
  obtain ⟨_, h2⟩ := h.2 j t[j].2.1 t[j].2.2 t[j].1 (List.getElem?_eq_getElem hj)
  rw [ha, Option.some.injEq] at h1
  rw [hb, Option.some.injEq] at h2
  subst h1
  subst h2
  have := natStr_injective hl
  exact (hids.getElem_inj_iff (hi := by simpa using hi) (hj := by simpa using hj)).1 (by simpa using this)

/-- Two LEDs. -/
example : areaPlot 3 [(0, 40, 7), (1, 20, 9)] = some
    ⟨[⟨(7, 40), (10, 41), "0".toList⟩, ⟨(9, 20), (12, 21), "1".toList⟩], (-8, 24), (55, 5)⟩ := by decide +kernel

/-! ### What the plots of the arrays show -/

/-- Where an LED of a table is drawn. -/
def ptOf (t : LedTable) (i : ℕ) : ℤ × ℤ := ((t[i]?).map fun l => (l.2.2, -l.2.1)).getD (0, 0)

theorem arrayPlot_ok (t : LedTable) (arrays : List (List ℕ)) (h : ∀ a ∈ arrays, ∀ i ∈ a, i < t.length) :
    arrayPlot t arrays = .ok (arrays.zipIdx.map fun a => ("LED Array ".toList ++ natStr a.2, a.1.map (ptOf t))) := by
  unfold arrayPlot
  rw [mapM_lookup _ (fun a => ("LED Array ".toList ++ natStr a.2, a.1.map (ptOf t)))]
  intro a ha
  have hm : a.1 ∈ arrays := by
    exact (List.mem_zipIdx' (x := a.1) (i := a.2) ha).2 ▸ List.getElem_mem _
  rw [mapM_lookup _ (ptOf t)]
  · rfl
  · intro i hi
    unfold ptOf
    rw [List.getElem?_eq_getElem (h a.1 hm i hi)]
    rfl

theorem optMapM_get {α β : Type} (f : α → Option β) : ∀ (l : List α) (r : List β), l.mapM f = some r → r.length = l.length ∧ ∀ n : ℕ, r[n]? = (l[n]?).bind f
  | [], r, h => by
    simp only [List.mapM_nil] at h
    cases h
    exact ⟨rfl, by simp⟩
  | a :: l, r, h => by
    rw [List.mapM_cons] at h
    cases e : f a with
    | none => rw [e] at h; cases h
    | some b =>
      cases e2 : l.mapM f with
      | none => rw [e, e2] at h; cases h
      | some r' =>
        rw [e, e2] at h
        cases h
        obtain ⟨h1, h2⟩ := optMapM_get f l r' e2
        refine ⟨by simp [h1], ?_⟩
        intro n
        cases n with
        | zero => simp [e]
        | succ n => simp [h2]

theorem reorder_points (t : LedTable) (arrays : List (List ℕ)) (t' : LedTable) (h : reorderSearchAreas t arrays = .ok t') :
    t'.length = arrays.flatten.length ∧ t'.map (·.1) = List.range t'.length ∧
      ∀ n i, arrays.flatten[n]? = some i → ptOf t' n = ptOf t i := by
  unfold reorderSearchAreas at h
  cases e : (arrays.flatten.mapM fun i => t[i]?) with
  | none => rw [e] at h; cases h
  | some rows =>
    rw [e] at h
    simp only [Except.ok.injEq] at h
    obtain ⟨h1, h2⟩ := optMapM_get _ _ _ e
    subst h
    refine ⟨by simp [h1], ?_, ?_⟩
    · rw [List.map_map]
      have : ((fun x : ℕ × ℤ × ℤ => x.1) ∘ fun e : (ℕ × ℤ × ℤ) × ℕ => (e.2, e.1.2)) = Prod.snd := rfl
      rw [this, List.length_map, List.length_zipIdx, List.range_eq_range']
      exact List.zipIdx_map_snd 0 rows
    · intro n i hn
      have := h2 n
      rw [hn] at this
      simp only [Option.bind_some] at this
      unfold ptOf
      rw [List.getElem?_map, List.getElem?_zipIdx, this]
      cases t[i]? <;> rfl

theorem reorder_map {β : Type} (f g : ℕ → β) (arrays : List (List ℕ)) : ∀ s, (∀ n i, arrays.flatten[n]? = some i → f (s + n) = g i) →
    (reorderIndicesFrom s arrays).map (fun a => a.map f) = arrays.map fun a => a.map g := by
  induction arrays with
  | nil => intro s _; rfl
  | cons a as ih =>
    intro s h
    simp only [reorderIndicesFrom, List.map_cons]
    rw [ih (s + a.length)]
    · congr 1
      apply List.ext_getElem?
      intro n
      rw [List.getElem?_map, List.getElem?_map]
      by_cases hn : n < a.length
      · rw [List.getElem?_range' hn, List.getElem?_eq_getElem hn]
        simp only [Option.map_some, Option.some.injEq]
        have := h n a[n] (by rw [List.flatten_cons, List.getElem?_append_left hn, List.getElem?_eq_getElem hn])
        rw [Nat.one_mul, this]
      · rw [List.getElem?_eq_none (by simpa using hn), List.getElem?_eq_none (by omega)]
        rfl
    · intro n i hn
      have := h (a.length + n) i (by rw [List.flatten_cons, List.getElem?_append_right (by omega), Nat.add_sub_cancel_left, hn])
      rw [← this]
      congr 1
      omega

theorem zipIdx_label (l : List (List ℕ)) (f : ℕ → ℤ × ℤ) : l.zipIdx.map (fun a => ("LED Array ".toList ++ natStr a.2, a.1.map f)) =
    (l.map fun a => a.map f).zipIdx.map fun a => ("LED Array ".toList ++ natStr a.2, a.1) := by
  rw [List.zipIdx_map, List.map_map]
  rfl

theorem mem_mergeArrays {arrays : List (List ℕ)} {g : List (List ℤ)} {a : List ℕ} (h : a ∈ mergeArrays arrays g) : ∀ i ∈ a, i ∈ arrays.flatten := by
  unfold mergeArrays at h
  rw [List.mem_filter, List.mem_map] at h
  obtain ⟨⟨grp, -, rfl⟩, -⟩ := h
  intro i hi
  rw [List.mem_flatMap] at hi
  obtain ⟨k, -, hk⟩ := hi
  split at hk
  · cases e : arrays[k.toNat]? with
    | none => rw [e] at hk; simp at hk
    | some b =>
      rw [e] at hk
      exact List.mem_flatten.2 ⟨b, List.mem_of_getElem? e, hk⟩
  · simp at hk

/-- The points of an array in a plot of arrays; nothing for numbers without array. -/
def pointsOf (p : ArrayPlot) (i : ℤ) : List (ℤ × ℤ) := if 0 ≤ i then ((p[i.toNat]?).map (·.2)).getD [] else []

/-- What a completed step 2 leaves. -/
theorem plotMatch_ok (R : ℤ) (find : LedTable → Except PyErr (List (List ℕ))) (groups : Option (List (List ℤ))) (t : LedTable) (d : PlotDisk)
    (arrays : List (List ℕ)) (hf : find t = .ok arrays) (t' : LedTable) (ht : reorderSearchAreas t arrays = .ok t') (p : AreaPlot) (hp : areaPlot R t' = some p) :
    plotMatch R true find groups t d = ({ d with
      table := some t', reordered := some p, flag := true
      arrays := some ((arrays.map fun a => a.map (ptOf t)).zipIdx.map fun a => ("LED Array ".toList ++ natStr a.2, a.1))
      merged := match groups with
        | none => d.merged
        | some g => some ((mergeArrays (reorderIndices arrays) g).zipIdx.map fun a => ("LED Array ".toList ++ natStr a.2, a.1.map (ptOf t'))) }, .ok ()) := by
  obtain ⟨h1, h2, h3⟩ := reorder_points t arrays t' ht
  have hin : ∀ i ∈ (reorderIndices arrays).flatten, i < t'.length := by
    intro i hi
    rw [reorderIndices, reorderIndicesFrom_flatten, List.mem_range'_1] at hi
    omega
  have e1 := arrayPlot_ok t' (reorderIndices arrays) fun a ha i hi => hin i (List.mem_flatten.2 ⟨a, ha, hi⟩)
  rw [zipIdx_label, reorderIndices, reorder_map (ptOf t') (ptOf t) arrays 0 (fun n i hn => by rw [Nat.zero_add]; exact h3 n i hn)] at e1
  unfold plotMatch
  rw [hf]
  simp only
  rw [ht]
  simp only [if_true]
  rw [hp]
  simp only [plotArrays, reorderIndices]
  rw [e1]
  cases groups with
  | none => rfl
  | some g =>
    simp only
    rw [arrayPlot_ok t' (mergeArrays (reorderIndicesFrom 0 arrays) g) fun a ha i hi => hin i (mem_mergeArrays ha i hi)]

/-- **C179 (arrays).** A step 2 that finds LED arrays and can read the reference photo completes. Its plot of arrays has one entry for each array in
their order, and shows it exactly at the pixels its LEDs had in the table before the renumbering. -/
theorem C179_arrays (R : ℤ) (find : LedTable → Except PyErr (List (List ℕ))) (groups : Option (List (List ℤ))) (t : LedTable) (d : PlotDisk)
    (arrays : List (List ℕ)) (hf : find t = .ok arrays) (hin : ∀ i ∈ arrays.flatten, i < t.length) (hne : arrays.flatten ≠ []) :
    (plotMatch R true find groups t d).2 = .ok () ∧ ∃ p, (plotMatch R true find groups t d).1.arrays = some p ∧ p.length = arrays.length ∧
      ∀ k a, arrays[k]? = some a → ∃ pts, p[k]? = some ("LED Array ".toList ++ natStr k, pts) ∧
        a.map (fun i => (t[i]?).map fun l => (l.2.2, -l.2.1)) = pts.map some := by
  obtain ⟨rows, hr, hlen, -⟩ := mapM_getElem t arrays.flatten hin
  have ht : reorderSearchAreas t arrays = .ok (rows.zipIdx.map fun e => (e.2, e.1.2)) := by
    unfold reorderSearchAreas
    rw [hr]
  have hne' : rows.zipIdx.map (fun e : (ℕ × ℤ × ℤ) × ℕ => (e.2, e.1.2)) ≠ [] := by
    intro h
    have := congrArg List.length h
    rw [List.length_map, List.length_zipIdx, hlen, List.length_nil] at this
    exact hne (List.eq_nil_of_length_eq_zero this)
  cases hp : areaPlot R (rows.zipIdx.map fun e => (e.2, e.1.2)) with
  | none =>
    exfalso
    revert hp hne'
    cases rows.zipIdx.map (fun e : (ℕ × ℤ × ℤ) × ℕ => (e.2, e.1.2)) with
    | nil => intro h; exact absurd rfl h
    | cons l t => intro _ h; cases h
  | some p =>
    rw [plotMatch_ok R find groups t d arrays hf _ ht p hp]
    refine ⟨rfl, _, rfl, by simp, ?_⟩
    intro k a hk
    refine ⟨a.map (ptOf t), ?_, ?_⟩
    · rw [List.getElem?_map, List.getElem?_zipIdx, List.getElem?_map, hk]
      simp
    · rw [List.map_map]
      refine List.map_congr_left fun i hi => ?_
      have := hin i (List.mem_flatten.2 ⟨a, List.mem_of_getElem? hk, hi⟩)
      simp [ptOf, List.getElem?_eq_getElem this]

/-- **C179 (merged arrays).** If each group of the merging contains an array with LEDs, the plot of merged arrays has one entry for each group in
their order, which shows the points of its arrays. -/
theorem C179_merged (R : ℤ) (find : LedTable → Except PyErr (List (List ℕ))) (g : List (List ℤ)) (t : LedTable) (d : PlotDisk)
    (arrays : List (List ℕ)) (hf : find t = .ok arrays) (hin : ∀ i ∈ arrays.flatten, i < t.length) (hne : arrays.flatten ≠ [])
    (hg : ∀ grp ∈ g, ∃ i ∈ grp, 0 ≤ i ∧ ∃ a, arrays[i.toNat]? = some a ∧ a ≠ []) :
    ∃ p q, (plotMatch R true find (some g) t d).1.arrays = some p ∧ (plotMatch R true find (some g) t d).1.merged = some q ∧ q.length = g.length ∧
      ∀ k grp, g[k]? = some grp → q[k]? = some ("LED Array ".toList ++ natStr k, grp.flatMap (pointsOf p)) := by
  obtain ⟨rows, hr, hlen, -⟩ := mapM_getElem t arrays.flatten hin
  have ht : reorderSearchAreas t arrays = .ok (rows.zipIdx.map fun e => (e.2, e.1.2)) := by
    unfold reorderSearchAreas
    rw [hr]
  have hne' : rows.zipIdx.map (fun e : (ℕ × ℤ × ℤ) × ℕ => (e.2, e.1.2)) ≠ [] := by
    intro h
    have := congrArg List.length h
    rw [List.length_map, List.length_zipIdx, hlen, List.length_nil] at this
    exact hne (List.eq_nil_of_length_eq_zero this)
  generalize rows.zipIdx.map (fun e : (ℕ × ℤ × ℤ) × ℕ => (e.2, e.1.2)) = t' at ht hne'
  obtain ⟨l1, l2, l3⟩ := reorder_points t arrays t' ht
  have hmap := reorder_map (ptOf t') (ptOf t) arrays 0 (fun n i hn => by rw [Nat.zero_add]; exact l3 n i hn)
  obtain ⟨p, hp⟩ : ∃ p, areaPlot R t' = some p := by
    cases t' with
    | nil => exact absurd rfl hne'
    | cons l t => exact ⟨_, rfl⟩
  rw [plotMatch_ok R find (some g) t d arrays hf _ ht p hp]
  refine ⟨_, _, rfl, rfl, ?_⟩
  have hlenr : (reorderIndices arrays).length = arrays.length := reorderIndices_length arrays
  have hnd : mergeArrays (reorderIndices arrays) g = g.map fun grp => grp.flatMap fun (i : ℤ) =>
      if 0 ≤ i ∧ i < (reorderIndices arrays).length then ((reorderIndices arrays)[i.toNat]?).getD [] else [] := by
    unfold mergeArrays
    rw [List.filter_eq_self]
    intro a ha
    obtain ⟨grp, hgrp, rfl⟩ := List.mem_map.1 ha
    obtain ⟨i, hi, h0, a, hk, hane⟩ := hg grp hgrp
    simp only [decide_eq_true_eq]
    intro h
    rw [List.flatMap_eq_nil_iff] at h
    have := h i hi
    have hlt := (List.getElem?_eq_some_iff.1 hk).1
    rw [if_pos ⟨h0, by rw [hlenr]; omega⟩] at this
    have hl : ((reorderIndices arrays).map List.length)[i.toNat]? = (arrays.map List.length)[i.toNat]? := by
      unfold reorderIndices
      rw [reorderIndicesFrom_lengths]
    rw [List.getElem?_map, List.getElem?_map, hk] at hl
    cases e : (reorderIndices arrays)[i.toNat]? with
    | none => rw [e] at hl; cases hl
    | some b =>
      rw [e] at hl this
      simp only [Option.map_some, Option.some.injEq, Option.getD_some] at hl this
      rw [this] at hl
      exact hane (List.eq_nil_of_length_eq_zero hl.symm)
  refine ⟨by rw [List.length_map, List.length_zipIdx, hnd, List.length_map], ?_⟩
  intro k grp hk
  rw [hnd, List.getElem?_map, List.getElem?_zipIdx, List.getElem?_map, hk]
  simp only [Option.map_some, Option.some.injEq, Prod.mk.injEq, Nat.zero_add, true_and]
  rw [List.map_flatMap]
  congr 1
  funext i
  unfold pointsOf
  by_cases h0 : 0 ≤ i
  · rw [if_pos h0, List.getElem?_map, List.getElem?_zipIdx]
    rw [← hmap]
    by_cases hlt : i < (reorderIndices arrays).length
    · rw [if_pos ⟨h0, hlt⟩]
      have : i.toNat < (reorderIndices arrays).length := by omega
      rw [List.getElem?_map, List.getElem?_eq_getElem this]
      simp only [Option.getD_some]
      simp only [reorderIndices] at this ⊢
      rw [List.getElem?_eq_getElem this]
      simp
    · rw [if_neg (fun h => hlt h.2), List.getElem?_map]
      have : (reorderIndicesFrom 0 arrays)[i.toNat]? = none := List.getElem?_eq_none (by unfold reorderIndices at hlt; omega)
      rw [this]
      simp
  · rw [if_neg h0, if_neg (fun h => h0 h.1)]
    rfl

/-! ### Which plots are up to date -/

/-- The plots a user has to look at show the table that the next step reads: before the renumbering the plot of step 1, after it the plot of
renumbered LEDs and the plot of arrays; the plot of renumbered LEDs is there only after it. -/
structure PlotsCurrent (R : ℤ) (d : PlotDisk) : Prop where
  before : ∀ t, d.table = some t → t ≠ [] → d.flag = false → d.areas = areaPlot R t
  after : ∀ t, d.table = some t → t ≠ [] → d.flag = true → d.reordered = areaPlot R t ∧ ∃ arrays : List (List ℕ),
    arrays.flatten = List.range t.length ∧ t.map (·.1) = List.range t.length ∧ d.arrays = (arrayPlot t arrays).toOption
  only : ∀ p, d.reordered = some p → d.flag = true ∧ ∃ t, d.table = some t ∧ areaPlot R t = some p

theorem areaPlot_none {R : ℤ} {t : LedTable} (h : areaPlot R t = none) : t = [] := by
  cases t with
  | nil => rfl
  | cons l t => cases h

theorem plotStep1_current (R : ℤ) (d : PlotDisk) (t : LedTable) : PlotsCurrent R (plotStep1 R true t d).1 := by
  unfold plotStep1
  simp only [if_true]
  cases e : areaPlot R t with
  | none =>
    have := areaPlot_none e
    subst this
    refine ⟨?_, ?_, by intro p h; cases h⟩
    · intro t ht hne; simp only [Option.some.injEq] at ht; exact absurd ht.symm hne
    · intro t ht hne; simp only [Option.some.injEq] at ht; exact absurd ht.symm hne
  | some p =>
    refine ⟨?_, by (intro t _ _ hf; cases hf), by intro p h; cases h⟩
    intro t ht hne hf
    simp only [Option.some.injEq] at ht
    subst ht
    exact e.symm

theorem PlotsCurrent.match {R : ℤ} {d : PlotDisk} (h : PlotsCurrent R d) (find : LedTable → Except PyErr (List (List ℕ)))
    (groups : Option (List (List ℤ))) (t : LedTable) : PlotsCurrent R (plotMatch R true find groups t d).1 := by
  cases hf : find t with
  | error e => unfold plotMatch; rw [hf]; exact h
  | ok arrays =>
    cases ht : reorderSearchAreas t arrays with
    | error e => unfold plotMatch; rw [hf]; simp only; rw [ht]; exact h
    | ok t' =>
      cases hp : areaPlot R t' with
      | none =>
        unfold plotMatch
        rw [hf]
        simp only
        rw [ht]
        simp only [if_true]
        rw [hp]
        have := areaPlot_none hp
        subst this
        refine ⟨?_, ?_, by intro p h; cases h⟩
        · intro t ht hne; simp only [Option.some.injEq] at ht; exact absurd ht.symm hne
        · intro t ht hne; simp only [Option.some.injEq] at ht; exact absurd ht.symm hne
      | some p =>
        rw [plotMatch_ok R find groups t d arrays hf t' ht p hp]
        obtain ⟨l1, l2, l3⟩ := reorder_points t arrays t' ht
        refine ⟨by (intro t _ _ hf; cases hf), ?_, ?_⟩
        · intro t'' e hne _
          simp only [Option.some.injEq] at e
          subst e
          refine ⟨hp.symm, reorderIndices arrays, ?_, l2, ?_⟩
          · rw [reorderIndices, reorderIndicesFrom_flatten, l1, List.range_eq_range']
          · rw [arrayPlot_ok t' (reorderIndices arrays)]
            · rw [zipIdx_label, reorderIndices, reorder_map (ptOf t') (ptOf t) arrays 0 (fun n i hn => by rw [Nat.zero_add]; exact l3 n i hn)]
              rfl
            · intro a ha i hi
              have : i ∈ (reorderIndices arrays).flatten := List.mem_flatten.2 ⟨a, ha, hi⟩
              rw [reorderIndices, reorderIndicesFrom_flatten, List.mem_range'_1] at this
              omega
        · intro q hq
          simp only [Option.some.injEq] at hq
          subst hq
          exact ⟨rfl, t', rfl, hp⟩

/-- **C179 (up to date).** After any series of calls of steps 1 and 2, including calls that end with an exception or find no LEDs, for any rule
that assigns LEDs to arrays: if the reference photo could always be read, the plots show the table that the next step reads. -/
theorem C179_current (R : ℤ) (calls : List PlotCall) (hph : ∀ c ∈ calls, c.photo = true) : PlotsCurrent R (plotRuns R calls) := by
  unfold plotRuns
  have key : ∀ (calls : List PlotCall) (d : PlotDisk), (∀ c ∈ calls, c.photo = true) → PlotsCurrent R d →
      PlotsCurrent R (calls.foldl (fun d c => (c.run R d).1) d) := by
    intro calls
    induction calls with
    | nil => intro d _ h; exact h
    | cons c cs ih =>
      intro d hp h
      refine ih _ (fun c hc => hp c (List.mem_cons_of_mem _ hc)) ?_
      have hc := hp c (by simp)
      cases c with
      | step1 b t =>
        simp only [PlotCall.photo] at hc
        subst hc
        exact plotStep1_current R d t
      | step2 b f g =>
        simp only [PlotCall.photo] at hc
        subst hc
        simp only [PlotCall.run, plotStep2]
        split
        · exact h
        · split
          · exact h
          · split
            · exact h
            · exact h.match f g _
      | both b f g t =>
        simp only [PlotCall.photo] at hc
        subst hc
        simp only [PlotCall.run, plotSteps12]
        have h1 := plotStep1_current R d t
        cases e : plotStep1 R true t d with
        | mk d1 r =>
          rw [e] at h1
          cases r with
          | error x => exact h1
          | ok u =>
            cases u
            simp only
            split
            · exact h1
            · exact h1.match f g t
  refine key calls _ hph ⟨?_, ?_, ?_⟩
  · intro t h; cases h
  · intro t h; cases h
  · intro p h; cases h

/-- **C179 (old plots of arrays, refuted).** The plots of arrays are not removed by step 1 nor the plot of merged arrays by a step 2 without
merging: whatever step 1 finds, they stay as they were. -/
theorem C179_stale_false (R : ℤ) (photo : Bool) (t : LedTable) (d : PlotDisk) :
    (plotStep1 R photo t d).1.arrays = d.arrays ∧ (plotStep1 R photo t d).1.merged = d.merged ∧
      ∀ find, (plotMatch R photo find none t d).1.merged = d.merged := by
  refine ⟨?_, ?_, ?_⟩
  · unfold plotStep1
    cases photo with
    | false => rfl
    | true => simp only [if_true]; cases areaPlot R t <;> rfl
  · unfold plotStep1
    cases photo with
    | false => rfl
    | true => simp only [if_true]; cases areaPlot R t <;> rfl
  · intro find
    unfold plotMatch
    cases find t with
    | error e => rfl
    | ok arrays =>
      simp only
      cases reorderSearchAreas t arrays with
      | error e => rfl
      | ok t' =>
        simp only
        cases photo with
        | false => rfl
        | true =>
          simp only [if_true]
          cases areaPlot R t' with
          | none => rfl
          | some p =>
            simp only [plotArrays]
            cases arrayPlot t' (reorderIndices arrays) <;> rfl

/-- **C179 (missing reference photo).** A step 2 that cannot read the reference photo fails, but has already replaced the table by the
renumbered one; the flag is not set and no plot of renumbered LEDs is left. The next step 2 is not refused: it assigns the renumbered LEDs to
arrays again. -/
theorem C179_photo_gone (R : ℤ) (find : LedTable → Except PyErr (List (List ℕ))) (groups : Option (List (List ℤ))) (t t' : LedTable) (d : PlotDisk)
    (arrays : List (List ℕ)) (hd : d.table = some t) (hflag : d.flag = false) (hlen : 2 ≤ t.length) (hf : find t = .ok arrays)
    (ht : reorderSearchAreas t arrays = .ok t') :
    (plotStep2 R false find groups d).2 = .error .fileNotFound ∧ (plotStep2 R false find groups d).1 = { d with table := some t', reordered := none } ∧
      ∀ find' groups', 2 ≤ t'.length →
        (plotStep2 R true find' groups' (plotStep2 R false find groups d).1) =
          plotMatch R true find' groups' t' { d with table := some t', reordered := none } := by
  have e : plotStep2 R false find groups d = ({ d with table := some t', reordered := none }, .error .fileNotFound) := by
    unfold plotStep2
    rw [hflag, hd]
    simp only [Bool.false_eq_true, if_false]
    rw [if_neg (by omega)]
    unfold plotMatch
    rw [hf]
    simp only
    rw [ht]
    simp [hflag]
  rw [e]
  refine ⟨rfl, rfl, ?_⟩
  intro find' groups' h2
  unfold plotStep2
  simp only [hflag, Bool.false_eq_true, if_false]
  rw [if_neg (by omega)]

/-- Three LEDs, assigned to two arrays by their ids. -/
def plotFind : LedTable → Except PyErr (List (List ℕ)) := fun _ => .ok [[2, 0], [1]]

/-- The three LEDs as step 1 finds them. -/
def plotTable : LedTable := [(0, 40, 7), (1, 20, 9), (2, 10, 7)]

/-- **C179 (refuted).** In general the plots do not show the table that the next step reads: step 2 without the reference photo. -/
theorem C179_false : ¬ ∀ (R : ℤ) (calls : List PlotCall), PlotsCurrent R (plotRuns R calls) := by
  intro h
  have := (h 3 [.step1 true plotTable, .step2 false plotFind none]).before [(0, 10, 7), (1, 40, 7), (2, 20, 9)]
    (by decide +kernel) (by decide) (by decide +kernel)
  revert this
  decide +kernel

/-- Steps 1 and 2: the plots of the three LEDs and of their arrays. -/
example : plotRuns 3 [.step1 true plotTable, .step2 true plotFind (some [[1, 0]])] =
    { table := some [(0, 10, 7), (1, 40, 7), (2, 20, 9)], flag := true, areas := areaPlot 3 plotTable
      reordered := areaPlot 3 [(0, 10, 7), (1, 40, 7), (2, 20, 9)]
      arrays := some [("LED Array 0".toList, [(7, -10), (7, -40)]), ("LED Array 1".toList, [(9, -20)])]
      merged := some [("LED Array 0".toList, [(9, -20), (7, -10), (7, -40)])] } := by decide +kernel

/-- **C179 (numbers of merged arrays, refuted).** If a group names no existing array, the later groups are labelled with smaller numbers. -/
theorem C179_merged_false : (plotRuns 3 [.step1 true plotTable, .step2 true plotFind (some [[7], [1, 0]])]).merged =
    some [("LED Array 0".toList, [(9, -20), (7, -10), (7, -40)])] := by decide +kernel

/-- **C179, step 1 without the photo.** The table is written although the plot cannot be made; the plots and the flag stay. -/
theorem C179_step1_photo_gone (R : ℤ) (t : LedTable) (d : PlotDisk) :
    (plotStep1 R false t d).2 = .error .fileNotFound ∧ (plotStep1 R false t d).1.table = some t ∧ (plotStep1 R false t d).1.areas = d.areas ∧
      (plotStep1 R false t d).1.flag = d.flag := ⟨rfl, rfl, rfl, rfl⟩

/-- **C179, once.** If the LEDs are matched already, step 2 stops and changes nothing; after step 2 has succeeded this is so. -/
theorem C179_once (R : ℤ) (photo photo' : Bool) (find find' : LedTable → Except PyErr (List (List ℕ))) (groups groups' : Option (List (List ℤ)))
    (d : PlotDisk) :
    (d.flag = true → plotStep2 R photo find groups d = (d, .error .systemExit)) ∧
    ((plotStep2 R photo find groups d).2 = .ok () → plotStep2 R photo' find' groups' (plotStep2 R photo find groups d).1 =
      ((plotStep2 R photo find groups d).1, .error .systemExit)) := by
  have h1 : ∀ (photo : Bool) (find : LedTable → Except PyErr (List (List ℕ))) (groups : Option (List (List ℤ))) (d : PlotDisk), d.flag = true →
      plotStep2 R photo find groups d = (d, .error .systemExit) := by
    intro photo find groups d h
    unfold plotStep2
    rw [h]
    rfl
  refine ⟨h1 photo find groups d, fun h => h1 _ _ _ _ ?_⟩
  revert h
  unfold plotStep2
  split
  · intro h; cases h
  · split
    · intro h; cases h
    · split
      · intro h; cases h
      · have ha : ∀ (t : LedTable) (arrays : List (List ℕ)) (d : PlotDisk), (plotArrays groups t arrays d).1.flag = d.flag := by
          intro t arrays d
          unfold plotArrays
          repeat' split
          all_goals rfl
        unfold plotMatch
        split
        · intro h; cases h
        · split
          · intro h; cases h
          · dsimp only
            split
            · split
              · intro h; cases h
              · intro _
                rw [ha]
            · intro h; cases h

end Ledsa
