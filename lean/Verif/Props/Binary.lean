import Verif.Model.Binary
import Verif.Props.Coordinates
import Verif.Props.Extinction

/-!
# Loading of results: which data the analysis uses (C72), number of LEDs (C78), missing images (C91), older files (C92), other
directories (C93), repeated loading (C94)
-/

namespace Ledsa

/-! ### Tables -/

/-- A text table of ids and values. -/
def asTable (t : List (ℕ × List ℚ)) : List (List ℚ) := t.map fun r => (r.1 : ℚ) :: r.2

/-- A coordinate file: id, further values, width, height. -/
def asCoord (c : List (ℕ × List ℚ × ℚ × ℚ)) : List (List ℚ) := c.map fun r => (r.1 : ℚ) :: (r.2.1 ++ [r.2.2.1, r.2.2.2])

theorem loadtxt_mat (rows : List (List ℚ)) (k : ℕ) (h2 : 2 ≤ rows.length) (hk : ∀ r ∈ rows, r.length = k + 2) :
    loadtxt rows = .ok (.mat rows) := by
  match rows, h2 with
  | r :: s :: rest, _ =>
    have hr := hk r (by simp)
    unfold loadtxt
    simp only
    rw [if_pos (by
      intro x hx
      rw [hk x (List.mem_cons_of_mem _ hx), hr])]
    match r, hr with
    | a :: b :: r', _ => rfl

theorem readTable_mat (rows : List (List ℚ)) (k : ℕ) (h2 : 2 ≤ rows.length) (hk : ∀ r ∈ rows, r.length = k + 2) (b : Bool) :
    readTable (some rows) b = .ok (.mat rows) := by
  unfold readTable
  simp only
  rw [loadtxt_mat rows k h2 hk]
  cases b <;> rfl

theorem asTable_length (t : List (ℕ × List ℚ)) (k : ℕ) (hk : ∀ r ∈ t, r.2.length = k + 1) :
    ∀ r ∈ asTable t, r.length = k + 2 := by
  intro r hr
  obtain ⟨x, hx, rfl⟩ := List.mem_map.1 hr
  simp [hk x hx]

theorem asCoord_length (c : List (ℕ × List ℚ × ℚ × ℚ)) (m : ℕ) (hm : ∀ r ∈ c, r.2.1.length = m) :
    ∀ r ∈ asCoord c, r.length = (m + 1) + 2 := by
  intro r hr
  obtain ⟨x, hx, rfl⟩ := List.mem_map.1 hr
  simp [hm x hx]

theorem idRows_asTable (t : List (ℕ × List ℚ)) : (NpArr.mat (asTable t)).idRows = .ok t := by
  show (asTable t).mapM _ = _
  unfold asTable
  rw [mapM_map_except, mapM_ok (g := id)]
  · rw [List.map_id]
  · intro x _
    simp

theorem coordRows_asCoord (c : List (ℕ × List ℚ × ℚ × ℚ)) :
    (NpArr.mat (asCoord c)).coordRows = .ok (c.map fun r => (r.1, r.2.2)) := by
  show (asCoord c).mapM _ = _
  unfold asCoord
  rw [mapM_map_except, mapM_ok (g := fun r : ℕ × List ℚ × ℚ × ℚ => (r.1, r.2.2))]
  intro x _
  simp

/-- Coordinates of LED `i` in a table, NaN without a table. -/
def CoordsOf (c : Option (List (ℕ × List ℚ × ℚ × ℚ))) (i : ℕ) (w h : Cell) : Prop :=
  match c with
  | none => w = none ∧ h = none
  | some c => ∃ mid x y, (i, mid, x, y) ∈ c ∧ w = some x ∧ h = some y

/-- `rows` are the rows of image `img`: the LEDs of its result table in ascending order, each once, with image number, values and
its own coordinates. -/
def RowsOfImage (t : List (ℕ × List ℚ)) (c : Option (List (ℕ × List ℚ × ℚ × ℚ))) (img : ℕ) (rows : List (List Cell)) : Prop :=
  ∃ l : List (ℕ × List ℚ × Cell × Cell), rows = l.map (fun r => some (img : ℚ) :: some (r.1 : ℚ) :: (r.2.1.map some ++ [r.2.2.1, r.2.2.2])) ∧
    (l.map (·.1)).Pairwise (· < ·) ∧ (∀ i v, (∃ w, (i, v, w) ∈ l) ↔ (i, v) ∈ t) ∧ ∀ i v w h, (i, v, w, h) ∈ l → CoordsOf c i w h

/-- A coordinate table as the program writes it, with all LEDs of the result table. -/
def GoodCoords (c : Option (List (ℕ × List ℚ × ℚ × ℚ))) (t : List (ℕ × List ℚ)) : Prop :=
  ∀ c', c = some c' → (c'.map (·.1)).Pairwise (· < ·) ∧ ∀ r ∈ t, r.1 ∈ c'.map (·.1)

theorem withCoordinates_ok (t : List (ℕ × List ℚ)) (c : Option (List (ℕ × List ℚ × ℚ × ℚ))) (hn : (t.map (·.1)).Nodup)
    (hc : GoodCoords c t) :
    ∃ l, withCoordinates t (c.map fun c => c.map fun r => (r.1, r.2.2)) = .ok l ∧ (l.map (·.1)).Pairwise (· < ·) ∧
      (∀ i v, (∃ w, (i, v, w) ∈ l) ↔ (i, v) ∈ t) ∧ ∀ i v w h, (i, v, w, h) ∈ l → CoordsOf c i w h := by
  cases c with
  | none =>
    refine ⟨_, rfl, ?_, ?_, ?_⟩
    · rw [List.map_map, List.pairwise_map]
      exact (sortRows_sorted t hn).imp (fun h => h)
    · intro i v
      constructor
      · rintro ⟨w, hw⟩
        obtain ⟨r, hr, he⟩ := List.mem_map.1 hw
        simp only [Prod.mk.injEq] at he
        obtain ⟨rfl, rfl, rfl⟩ := he
        exact (sortRows_mem t r).1 hr
      · intro h
        exact ⟨(none, none), List.mem_map.2 ⟨(i, v), (sortRows_mem t _).2 h, rfl⟩⟩
    · intro i v w h hm
      obtain ⟨r, hr, he⟩ := List.mem_map.1 hm
      simp only [Prod.mk.injEq] at he
      exact ⟨he.2.2.1.symm, he.2.2.2.symm⟩
  | some c =>
    obtain ⟨h1, h2⟩ := hc c rfl
    obtain ⟨rows, e1, e2, e3, e4⟩ := C49_right_led t (c.map fun r => (r.1, r.2.2)) hn (by rw [List.map_map]; exact h1) (by
      intro i hi
      obtain ⟨r, hr, rfl⟩ := List.mem_map.1 hi
      rw [List.map_map]
      exact h2 r hr)
    refine ⟨rows.map fun r => (r.1, r.2.1, some r.2.2.1, some r.2.2.2), ?_, ?_, ?_, ?_⟩
    · unfold withCoordinates
      simp only [Option.map_some]
      rw [e1]
      rfl
    · rw [List.map_map]; exact e2
    · intro i v
      rw [← e3]
      constructor
      · rintro ⟨w, hw⟩
        obtain ⟨r, hr, he⟩ := List.mem_map.1 hw
        simp only [Prod.mk.injEq] at he
        obtain ⟨rfl, rfl, rfl⟩ := he
        exact ⟨r.2.2, hr⟩
      · rintro ⟨w, hw⟩
        exact ⟨(some w.1, some w.2), List.mem_map.2 ⟨(i, v, w), hw, rfl⟩⟩
    · intro i v w h hm
      obtain ⟨r, hr, he⟩ := List.mem_map.1 hm
      simp only [Prod.mk.injEq] at he
      obtain ⟨rfl, rfl, rfl, rfl⟩ := he
      have := e4 r.1 r.2.1 r.2.2 hr
      obtain ⟨q, hq, he⟩ := List.mem_map.1 this
      simp only [Prod.mk.injEq] at he
      refine ⟨q.2.1, r.2.2.1, r.2.2.2, ?_, rfl, rfl⟩
      rw [← he.1]
      have : q = (q.1, q.2.1, r.2.2.1, r.2.2.2) := by rw [← he.2]
      rw [← this]
      exact hq

/-- A result table that can be loaded: at least two LEDs, different ids, `k + 1` values in each row. -/
structure GoodTable (t : List (ℕ × List ℚ)) (k : ℕ) : Prop where
  two : 2 ≤ t.length
  nodup : (t.map (·.1)).Nodup
  width : ∀ r ∈ t, r.2.length = k + 1

theorem loadImage_ok (t : List (ℕ × List ℚ)) (k : ℕ) (ht : GoodTable t k) (c : Option (List (ℕ × List ℚ × ℚ × ℚ)))
    (hc : GoodCoords c t) (cols : List String) (hcols : cols.length = k + 5) (img : ℕ) :
    ∃ rows, loadImage (some (asTable t)) (c.map fun c => c.map fun r => (r.1, r.2.2)) cols img = .ok rows ∧
      RowsOfImage t c img rows := by
  obtain ⟨l, e1, e2, e3, e4⟩ := withCoordinates_ok t c ht.nodup hc
  refine ⟨l.map (frameRow img), ?_, l, rfl, e2, e3, e4⟩
  unfold loadImage
  rw [readTable_mat (asTable t) k (by unfold asTable; rw [List.length_map]; exact ht.two) (asTable_length t k ht.width)]
  simp only
  rw [idRows_asTable]
  simp only [bind, Except.bind]
  rw [e1]
  simp only
  rw [if_pos]
  intro r hr
  obtain ⟨x, hx, rfl⟩ := List.mem_map.1 hr
  have : x.2.1.length = k + 1 := ht.width (x.1, x.2.1) ((e3 x.1 x.2.1).1 ⟨x.2.2, hx⟩)
  simp [frameRow, this, hcols]

/-- Values of a row as step 3 writes them: array, sum and maximum are integers. -/
def IntRow (v : List ℚ) : Prop := ∃ (a s m : ℤ) (x : ℚ) (rest : List ℚ), v = (a : ℚ) :: (s : ℚ) :: x :: (m : ℚ) :: rest

theorem truncZero_ofInt (z : ℤ) : truncZero (z : ℚ) = z := by
  unfold truncZero; split <;> simp

theorem castCol_id (cols : List String) (R : List (List Cell)) (name : String) (i : ℕ) (hm : name ∈ cols)
    (hi : cols.idxOf name = i) (h : ∀ r ∈ R, castAt i r = .ok r) : castCol ⟨cols, R⟩ name = .ok ⟨cols, R⟩ := by
  unfold castCol
  simp only
  rw [if_pos hm, hi, mapM_ok (g := id) h, List.map_id]
  rfl

theorem castAt_int (z : ℤ) (r : List Cell) : castAt 0 (some (z : ℚ) :: r) = .ok (some (z : ℚ) :: r) := by
  unfold castAt; rw [truncZero_ofInt]

theorem castAt_succ (k : ℕ) (c : Cell) (r : List Cell) (h : castAt k r = .ok r) : castAt (k + 1) (c :: r) = .ok (c :: r) := by
  have : castAt (k + 1) (c :: r) = (castAt k r).map (c :: ·) := by cases c <;> rfl
  rw [this, h]
  rfl

/-- All images can be loaded. -/
theorem loadAll_ok (csv : ℕ → Option (List (List ℚ))) (t : ℕ → List (ℕ × List ℚ)) (c : Option (List (ℕ × List ℚ × ℚ × ℚ)))
    (n k : ℕ) (cols : List String) (hcols : cols.length = k + 5)
    (hcsv : ∀ i, 1 ≤ i → i ≤ n → csv i = some (asTable (t i)) ∧ GoodTable (t i) k ∧ GoodCoords c (t i)) :
    ∃ rows : ℕ → List (List Cell), ((List.range n).mapM fun (i : ℕ) => loadImage (csv (i + 1))
        (c.map fun c => c.map fun r => (r.1, r.2.2)) cols (i + 1)) = .ok ((List.range n).map fun (i : ℕ) => rows (i + 1)) ∧
      ∀ i, 1 ≤ i → i ≤ n → RowsOfImage (t i) c i (rows i) := by
  have hex : ∀ i : ℕ, ∃ rows, (1 ≤ i → i ≤ n → loadImage (csv i) (c.map fun c => c.map fun r => (r.1, r.2.2)) cols i = .ok rows ∧
      RowsOfImage (t i) c i rows) := by
    intro i
    by_cases h : 1 ≤ i ∧ i ≤ n
    · obtain ⟨h1, h2, h3⟩ := hcsv i h.1 h.2
      obtain ⟨rows, r1, r2⟩ := loadImage_ok (t i) k h2 c h3 _ hcols i
      exact ⟨rows, fun _ _ => ⟨by rw [h1]; exact r1, r2⟩⟩
    · exact ⟨[], fun a b => absurd ⟨a, b⟩ h⟩
  choose rows hrows using hex
  refine ⟨rows, ?_, fun i h1 h2 => (hrows i h1 h2).2⟩
  rw [mapM_ok (g := fun (i : ℕ) => rows (i + 1))]
  intro i hi
  rw [List.mem_range] at hi
  exact (hrows (i + 1) (by omega) (by omega)).1

/-- The first values of every row are integers if the first values in the files are. -/
theorem rows_shape (t : ℕ → List (ℕ × List ℚ)) (c : Option (List (ℕ × List ℚ × ℚ × ℚ))) (n : ℕ) (rows : ℕ → List (List Cell))
    (hr : ∀ i, 1 ≤ i → i ≤ n → RowsOfImage (t i) c i (rows i)) (r : List Cell)
    (h : r ∈ ((List.range n).map fun (i : ℕ) => rows (i + 1)).flatten) :
    ∃ (p q : ℤ) (i j : ℕ) (v : List ℚ) (w h : Cell), 1 ≤ i ∧ i ≤ n ∧ (j, v) ∈ t i ∧
      r = some (p : ℚ) :: some (q : ℚ) :: (v.map some ++ [w, h]) := by
  obtain ⟨l, hl, hrl⟩ := List.mem_flatten.1 h
  obtain ⟨i, hi, rfl⟩ := List.mem_map.1 hl
  rw [List.mem_range] at hi
  obtain ⟨l', e1, e2, e3, e4⟩ := hr (i + 1) (by omega) (by omega)
  rw [e1] at hrl
  obtain ⟨x, hx, rfl⟩ := List.mem_map.1 hrl
  exact ⟨(i + 1 : ℕ), (x.1 : ℕ), i + 1, x.1, x.2.1, x.2.2.1, x.2.2.2, by omega, by omega, (e3 x.1 x.2.1).1 ⟨x.2.2, hx⟩, by simp⟩

/-- **C72, C78.** The content of a newly built table: if every image 1, …, n has a result table with at least two LEDs, the
table has, image by image, exactly the rows of the result files with their own coordinates. -/
theorem buildFrame_ok (csv : ℕ → Option (List (List ℚ))) (t : ℕ → List (ℕ × List ℚ)) (c : Option (List (ℕ × List ℚ × ℚ × ℚ)))
    (n k : ℕ) (hn : 0 < n) (hk : k = 3 ∨ k = 16)
    (hcsv : ∀ i, 1 ≤ i → i ≤ n → csv i = some (asTable (t i)) ∧ GoodTable (t i) k ∧ GoodCoords c (t i) ∧ ∀ r ∈ t i, IntRow r.2) :
    ∃ (f : DataTable) (rows : ℕ → List (List Cell)), buildFrame csv (c.map fun c => c.map fun r => (r.1, r.2.2)) (columnNames (k + 2) ++ ["width", "height"]) n = .ok f ∧
      f.cols = columnNames (k + 2) ++ ["width", "height"] ∧
      f.rows = ((List.range n).map fun (i : ℕ) => rows (i + 1)).flatten ∧
      ∀ i, 1 ≤ i → i ≤ n → RowsOfImage (t i) c i (rows i) := by
  have hcols : (columnNames (k + 2) ++ ["width", "height"]).length = k + 5 := by
    rcases hk with rfl | rfl <;> decide
  obtain ⟨rows, e1, e2⟩ := loadAll_ok csv t c n k _ hcols (fun i h1 h2 => ⟨(hcsv i h1 h2).1, (hcsv i h1 h2).2.1, (hcsv i h1 h2).2.2.1⟩)
  refine ⟨⟨columnNames (k + 2) ++ ["width", "height"], ((List.range n).map fun (i : ℕ) => rows (i + 1)).flatten⟩, rows, ?_, rfl, rfl,
    e2⟩
  unfold buildFrame
  rw [e1]
  simp only [bind, Except.bind]
  rw [if_neg (by omega)]
  have hrow : ∀ r ∈ ((List.range n).map fun (i : ℕ) => rows (i + 1)).flatten, ∃ (p q a s m : ℤ) (x : ℚ) (rest : List Cell),
      r = some (p : ℚ) :: some (q : ℚ) :: some (a : ℚ) :: some (s : ℚ) :: some x :: some (m : ℚ) :: rest := by
    intro r hr
    obtain ⟨p, q, i, j, v, w, h, h1, h2, h3, rfl⟩ := rows_shape t c n rows e2 r hr
    obtain ⟨a, s, m, y, rest, hv⟩ := (hcsv i h1 h2).2.2.2 (j, v) h3
    simp only at hv
    exact ⟨p, q, a, s, m, y, rest.map some ++ [w, h], by rw [hv]; simp⟩
  generalize ((List.range n).map fun (i : ℕ) => rows (i + 1)).flatten = R at hrow ⊢
  have c0 : castCol ⟨columnNames (k + 2) ++ ["width", "height"], R⟩ "img_id" = .ok ⟨columnNames (k + 2) ++ ["width", "height"], R⟩ :=
    castCol_id _ _ _ 0 (by rcases hk with rfl | rfl <;> decide) (by rcases hk with rfl | rfl <;> decide) (by
      intro r hr
      obtain ⟨p, q, a, s, m, x, rest, rfl⟩ := hrow r hr
      exact castAt_int p _)
  have c1 : castCol ⟨columnNames (k + 2) ++ ["width", "height"], R⟩ "led_id" = .ok ⟨columnNames (k + 2) ++ ["width", "height"], R⟩ :=
    castCol_id _ _ _ 1 (by rcases hk with rfl | rfl <;> decide) (by rcases hk with rfl | rfl <;> decide) (by
      intro r hr
      obtain ⟨p, q, a, s, m, x, rest, rfl⟩ := hrow r hr
      exact castAt_succ _ _ _ (castAt_int q _))
  have c2 : castCol ⟨columnNames (k + 2) ++ ["width", "height"], R⟩ "led_array_id" = .ok ⟨columnNames (k + 2) ++ ["width", "height"], R⟩ :=
    castCol_id _ _ _ 2 (by rcases hk with rfl | rfl <;> decide) (by rcases hk with rfl | rfl <;> decide) (by
      intro r hr
      obtain ⟨p, q, a, s, m, x, rest, rfl⟩ := hrow r hr
      exact castAt_succ _ _ _ (castAt_succ _ _ _ (castAt_int a _)))
  have c3 : castCol ⟨columnNames (k + 2) ++ ["width", "height"], R⟩ "max_col_val" = .ok ⟨columnNames (k + 2) ++ ["width", "height"], R⟩ :=
    castCol_id _ _ _ 5 (by rcases hk with rfl | rfl <;> decide) (by rcases hk with rfl | rfl <;> decide) (by
      intro r hr
      obtain ⟨p, q, a, s, m, x, rest, rfl⟩ := hrow r hr
      exact castAt_succ _ _ _ (castAt_succ _ _ _ (castAt_succ _ _ _ (castAt_succ _ _ _ (castAt_succ _ _ _ (castAt_int m _))))))
  have c4 : castCol ⟨columnNames (k + 2) ++ ["width", "height"], R⟩ "sum_col_val" = .ok ⟨columnNames (k + 2) ++ ["width", "height"], R⟩ :=
    castCol_id _ _ _ 3 (by rcases hk with rfl | rfl <;> decide) (by rcases hk with rfl | rfl <;> decide) (by
      intro r hr
      obtain ⟨p, q, a, s, m, x, rest, rfl⟩ := hrow r hr
      exact castAt_succ _ _ _ (castAt_succ _ _ _ (castAt_succ _ _ _ (castAt_int s _))))
  simp only [List.foldlM_cons, List.foldlM_nil, c0, c1, c2, c3, c4, bind, Except.bind]
  rfl

/-! ### C72 -/

/-- A directory from which the results of a channel can be loaded. -/
structure GoodDir (w : HdfWorld) (ch n k : ℕ) (t : ℕ → List (ℕ × List ℚ)) (c : Option (List (ℕ × List ℚ × ℚ × ℚ))) : Prop where
  count : w.count w.cwd = .ok (n : ℤ)
  pos : 0 < n
  width : k = 3 ∨ k = 16
  tables : ∀ i, 1 ≤ i → i ≤ n → w.csv w.cwd ch i = some (asTable (t i)) ∧ GoodTable (t i) k ∧ GoodCoords c (t i) ∧
    ∀ r ∈ t i, IntRow r.2
  coords : w.coord w.cwd = c.map asCoord
  coords2 : ∀ c', c = some c' → 2 ≤ c'.length ∧ ∃ m, ∀ r ∈ c', r.2.1.length = m

theorem coordinatesOf_fresh (w : HdfWorld) (c : Option (List (ℕ × List ℚ × ℚ × ℚ))) (hw : w.cache = none)
    (hc : w.coord w.cwd = c.map asCoord) (h2 : ∀ c', c = some c' → 2 ≤ c'.length ∧ ∃ m, ∀ r ∈ c', r.2.1.length = m) :
    coordinatesOf w = .ok (c.map fun c => c.map fun r => (r.1, r.2.2)) := by
  unfold coordinatesOf
  rw [hw, hc]
  cases c with
  | none => rfl
  | some c =>
    obtain ⟨h, m, hm⟩ := h2 c rfl
    simp only [Option.map_some]
    rw [readTable_mat (asCoord c) (m + 1) (by unfold asCoord; rw [List.length_map]; exact h) (asCoord_length c m hm)]
    simp only
    rw [coordRows_asCoord]
    rfl

theorem shape_of (t : List (ℕ × List ℚ)) (k : ℕ) (ht : GoodTable t k) :
    (readTable (some (asTable t)) false).bind NpArr.shape1 = .ok (k + 2) := by
  rw [readTable_mat (asTable t) k (by unfold asTable; rw [List.length_map]; exact ht.two) (asTable_length t k ht.width)]
  match t, ht with
  | r :: rest, ht =>
    have := ht.width r (by simp)
    simp [Except.bind, asTable, NpArr.shape1, this]

/-- **C72.** In a new program the table made from the files holds exactly their rows: for every image the LEDs of its result
file, each once, with all values and its own coordinates. -/
theorem C72_content (w : HdfWorld) (ch n k : ℕ) (t : ℕ → List (ℕ × List ℚ)) (c : Option (List (ℕ × List ℚ × ℚ × ℚ)))
    (h : GoodDir w ch n k t c) (hw : w.cache = none) :
    ∃ (f : DataTable) (rows : ℕ → List (List Cell)), (newFrame w ch).1 = .ok f ∧
      f.cols = columnNames (k + 2) ++ ["width", "height"] ∧
      f.rows = ((List.range n).map fun (i : ℕ) => rows (i + 1)).flatten ∧
      ∀ i, 1 ≤ i → i ≤ n → RowsOfImage (t i) c i (rows i) := by
  obtain ⟨f, rows, h1, h2, h3, h4⟩ := buildFrame_ok (w.csv w.cwd ch) t c n k h.pos h.width h.tables
  refine ⟨f, rows, ?_, h2, h3, h4⟩
  unfold newFrame
  obtain ⟨t1, t2, _⟩ := h.tables 1 (by omega) h.pos
  rw [t1, shape_of (t 1) k t2, h.count]
  simp only
  rw [if_neg (by have := h.pos; omega), coordinatesOf_fresh w c hw h.coords h.coords2]
  simp only [Int.toNat_natCast]
  exact h1

/-- **C72.** Without a binary file the analysis uses the files as they are. -/
theorem C72_first_partial (w : HdfWorld) (ch : ℕ) (f : DataTable) (hb : w.binary w.cwd ch = none) (hf : (newFrame w ch).1 = .ok f) :
    (readHdf w ch w.cwd).1 = .ok f := by
  unfold readHdf createBinary
  rw [hb]
  simp only [hf, hb, HdfWorld.setBinary, and_self, if_true]

theorem createBinary_other (w : HdfWorld) (ch ch' : ℕ) (d : Str) (f : DataTable) (hb : w.binary d ch = some f)
    (hn : w.binary w.cwd ch' = none) : (createBinary w ch').2.binary d ch = some f := by
  unfold createBinary
  simp only [hn]
  cases hf : (newFrame w ch').1 with
  | error e => exact hb
  | ok g =>
    simp only [HdfWorld.setBinary]
    rw [if_neg]
    · exact hb
    · rintro ⟨rfl, rfl⟩
      rw [hn] at hb
      cases hb

/-- A binary file is never changed by extraction, coordinates and analyses. -/
theorem binary_kept (ops : List HdfOp) : ∀ (w : HdfWorld) (d : Str) (ch : ℕ) (f : DataTable), w.binary d ch = some f →
    (ops.foldl HdfOp.run w).binary d ch = some f := by
  induction ops with
  | nil => intro w d ch f h; exact h
  | cons op ops ih =>
    intro w d ch f h
    rw [List.foldl_cons]
    apply ih
    cases op with
    | step3 => exact h
    | coordinates => exact h
    | newProgram => exact h
    | chdir => exact h
    | analyse ch' =>
      show (readHdf w ch' w.cwd).2.binary d ch = some f
      unfold readHdf
      cases hn : w.binary w.cwd ch' with
      | some g => exact h
      | none =>
        have key := createBinary_other w ch ch' d f h hn
        simp only
        cases hc : createBinary w ch' with
        | mk r w' =>
          rw [hc] at key
          cases r with
          | error e => exact key
          | ok u =>
            simp only
            cases w'.binary w.cwd ch' <;> exact key

/-- **C72 refuted**: once a channel was analysed, every later analysis uses the data of that first time, whatever was extracted
or calculated since. -/
theorem C72_false (w : HdfWorld) (ch : ℕ) (f : DataTable) (hf : (readHdf w ch w.cwd).1 = .ok f) (ops : List HdfOp) :
    (readHdf (ops.foldl HdfOp.run (HdfOp.run w (.analyse ch))) ch w.cwd).1 = .ok f := by
  have h1 : (HdfOp.run w (.analyse ch)).binary w.cwd ch = some f := by
    unfold HdfOp.run
    simp only
    unfold readHdf at hf ⊢
    cases hn : w.binary w.cwd ch with
    | some g =>
      simp only [hn] at hf ⊢
      rw [Except.ok.inj hf]
    | none =>
      simp only [hn] at hf ⊢
      cases hc : createBinary w ch with
      | mk r w' =>
        simp only [hc] at hf ⊢
        cases r with
        | error e => simp only at hf; cases hf
        | ok u =>
          simp only at hf ⊢
          cases hb : w'.binary w.cwd ch with
          | none => simp only [hb] at hf; cases hf
          | some g =>
            simp only [hb] at hf ⊢
            rw [Except.ok.inj hf]
  have h2 := binary_kept ops _ _ _ _ h1
  unfold readHdf
  rw [h2]

/-- **C72.** The analysis uses the current files exactly if there is no binary file, or it was made from the same contents. -/
theorem C72_iff (w : HdfWorld) (ch : ℕ) (f : DataTable) (hf : (newFrame w ch).1 = .ok f) :
    (readHdf w ch w.cwd).1 = .ok f ↔ w.binary w.cwd ch = none ∨ w.binary w.cwd ch = some f := by
  constructor
  · intro h
    cases hb : w.binary w.cwd ch with
    | none => exact .inl rfl
    | some g =>
      unfold readHdf at h
      simp only [hb] at h
      rw [Except.ok.inj h]
      exact .inr rfl
  · rintro (h | h)
    · exact C72_first_partial w ch f h hf
    · unfold readHdf; rw [h]

theorem newFrame_cache (w : HdfWorld) (ch : ℕ) (f : DataTable) (hf : (newFrame w ch).1 = .ok f) :
    ∃ c, coordinatesOf w = .ok c ∧ (newFrame w ch).2 = some c := by
  unfold newFrame at hf ⊢
  split at hf
  · cases hf
  · split at hf
    · cases hf
    · split at hf
      · cases hf
      · rename_i h1 _ _ h2 h3
        rw [if_neg h3]
        cases hc : coordinatesOf w with
        | error e => rw [hc] at hf; cases hf
        | ok c => exact ⟨c, rfl, rfl⟩

/-- **C72 refuted within one program**: after a channel was loaded, other coordinates, calculated anew or those of another
directory, are not used for the following channels. -/
theorem C72_coordinates_false (w : HdfWorld) (ch : ℕ) (f : DataTable) (hf : (newFrame w ch).1 = .ok f) (op : HdfOp)
    (hop : (∃ t, op = .coordinates t) ∨ ∃ d, op = .chdir d) :
    coordinatesOf (HdfOp.run (createBinary w ch).2 op) = coordinatesOf w := by
  obtain ⟨c, h1, h2⟩ := newFrame_cache w ch f hf
  have h3 : (createBinary w ch).2.cache = some c := by
    unfold createBinary
    simp only [hf]
    split
    · exact h2
    · split <;> exact h2
  rw [h1]
  unfold coordinatesOf
  rcases hop with ⟨t, rfl⟩ | ⟨d, rfl⟩
  · show (match (createBinary w ch).2.cache with | some c => _ | none => _) = _
    rw [h3]
  · show (match (createBinary w ch).2.cache with | some c => _ | none => _) = _
    rw [h3]

/-! ### C94 -/

/-- The same table is made again, with the remembered coordinates. -/
theorem newFrame_again (w : HdfWorld) (ch : ℕ) (f g : DataTable) (hf : (newFrame w ch).1 = .ok f) (d : Str) (ch' : ℕ) :
    (newFrame ({ w with cache := (newFrame w ch).2 }.setBinary d ch' g) ch).1 = .ok f := by
  obtain ⟨c, h1, h2⟩ := newFrame_cache w ch f hf
  rw [h2]
  have h3 : coordinatesOf ({ w with cache := some c }.setBinary d ch' g) = .ok c := rfl
  unfold newFrame at hf ⊢
  rw [h3]
  rw [h1] at hf
  simp only [HdfWorld.setBinary]
  revert hf
  generalize (readTable (w.csv w.cwd ch 1) false).bind NpArr.shape1 = a
  generalize w.count w.cwd = b
  cases a with
  | error e => exact id
  | ok k =>
    cases b with
    | error e => exact id
    | ok n =>
      simp only
      by_cases hn : n ≤ 0
      · rw [if_pos hn, if_pos hn]; exact id
      · rw [if_neg hn, if_neg hn]; exact id

/-- **C94 refuted**: making the binary file again doubles all rows. -/
theorem C94_false (w : HdfWorld) (ch : ℕ) (f : DataTable) (hb : w.binary w.cwd ch = none) (hf : (newFrame w ch).1 = .ok f) :
    (createBinary (createBinary w ch).2 ch).2.binary w.cwd ch = some ⟨f.cols, f.rows ++ f.rows⟩ := by
  have h1 : (createBinary w ch).2 = { w with cache := (newFrame w ch).2 }.setBinary w.cwd ch f := by
    unfold createBinary
    simp only [hf, hb]
  have h2 := newFrame_again w ch f f hf w.cwd ch
  rw [h1]
  unfold createBinary
  simp only
  rw [h2]
  have h3 : ({ w with cache := (newFrame w ch).2 }.setBinary w.cwd ch f).binary
      ({ w with cache := (newFrame w ch).2 }.setBinary w.cwd ch f).cwd ch = some f := by
    simp [HdfWorld.setBinary]
  rw [h3]
  simp only [if_true]
  simp [HdfWorld.setBinary]

/-- **C94.** Making it for the first time gives the table itself. -/
theorem C94_first_partial (w : HdfWorld) (ch : ℕ) (f : DataTable) (hb : w.binary w.cwd ch = none) (hf : (newFrame w ch).1 = .ok f) :
    (createBinary w ch).2.binary w.cwd ch = some f := by
  unfold createBinary
  simp only [hf, hb]
  simp [HdfWorld.setBinary]

/-! ### C93 -/

/-- **C93.** A binary file of another directory is read as it is. -/
theorem C93_existing_partial (w : HdfWorld) (ch : ℕ) (path : Str) (f : DataTable) (h : w.binary path ch = some f) :
    readHdf w ch path = (.ok f, w) := by
  unfold readHdf; rw [h]

/-- **C93 refuted**: results of another directory that are not yet in a binary file are never read, even if the files are there;
instead the results of the working directory are appended once more to its own binary file. -/
theorem C93_false (w : HdfWorld) (ch : ℕ) (path : Str) (hp : path ≠ w.cwd) (hb : w.binary path ch = none) :
    (∃ e, (readHdf w ch path).1 = .error e) ∧
    ∀ f, (newFrame w ch).1 = .ok f → ∀ g, w.binary w.cwd ch = some g → g.cols = f.cols →
      (readHdf w ch path).2.binary w.cwd ch = some ⟨g.cols, g.rows ++ f.rows⟩ := by
  have hkeep : (createBinary w ch).2.binary path ch = none := by
    unfold createBinary
    simp only
    split
    · exact hb
    · split
      · simp only [HdfWorld.setBinary]; rw [if_neg (fun h => hp h.1)]; exact hb
      · split
        · simp only [HdfWorld.setBinary]; rw [if_neg (fun h => hp h.1)]; exact hb
        · exact hb
  constructor
  · unfold readHdf
    rw [hb]
    simp only
    cases hc : createBinary w ch with
    | mk r w' =>
      rw [hc] at hkeep
      cases r with
      | error e => exact ⟨e, rfl⟩
      | ok u => simp only at hkeep ⊢; rw [hkeep]; exact ⟨_, rfl⟩
  · intro f hf g hg hcols
    unfold readHdf
    rw [hb]
    simp only
    have hcr : createBinary w ch = (.ok (), { w with cache := (newFrame w ch).2 }.setBinary w.cwd ch ⟨g.cols, g.rows ++ f.rows⟩) := by
      unfold createBinary
      simp only [hf, hg]
      rw [if_pos hcols.symm]
    rw [hcr] at hkeep ⊢
    simp only at hkeep ⊢
    rw [hkeep]
    simp [HdfWorld.setBinary]

/-! ### C91 -/

/-- **C91 refuted**: one image without result file makes loading fail, whatever the other images are. -/
theorem C91_false (w : HdfWorld) (ch : ℕ) (n : ℤ) (hn : w.count w.cwd = .ok n) (i : ℕ) (h1 : 1 ≤ i) (h2 : (i : ℤ) ≤ n)
    (hi : w.csv w.cwd ch i = none) : ∃ e, (newFrame w ch).1 = .error e := by
  unfold newFrame
  rw [hn]
  split
  · exact ⟨_, rfl⟩
  · simp only
    rw [if_neg (by omega)]
    cases hc : coordinatesOf w with
    | error e => exact ⟨e, rfl⟩
    | ok c =>
      simp only
      unfold buildFrame
      rename_i k _
      obtain ⟨e, he⟩ := mapM_error (f := fun (j : ℕ) => loadImage (w.csv w.cwd ch (j + 1)) c (columnNames k ++ ["width", "height"]) (j + 1))
        (l := List.range n.toNat) ⟨i - 1, List.mem_range.2 (by omega), .attributeError, by
          have : i - 1 + 1 = i := by omega
          rw [this, hi]; rfl⟩
      rw [he]
      exact ⟨e, rfl⟩

/-! ### C92 -/

/-- **C92 refuted**: result files in the two older formats cannot be loaded, because they have no maximum. -/
theorem C92_false (w : HdfWorld) (ch n k : ℕ) (t : ℕ → List (ℕ × List ℚ)) (c : Option (List (ℕ × List ℚ × ℚ × ℚ)))
    (hk : k = 2 ∨ k = 13) (hw : w.cache = none) (hn : w.count w.cwd = .ok (n : ℤ)) (hpos : 0 < n)
    (ht : ∀ i, 1 ≤ i → i ≤ n → w.csv w.cwd ch i = some (asTable (t i)) ∧ GoodTable (t i) k ∧ GoodCoords c (t i) ∧
      ∀ r ∈ t i, ∃ (a : ℤ) (rest : List ℚ), r.2 = (a : ℚ) :: rest)
    (hc : w.coord w.cwd = c.map asCoord) (hc2 : ∀ c', c = some c' → 2 ≤ c'.length ∧ ∃ m, ∀ r ∈ c', r.2.1.length = m) :
    (newFrame w ch).1 = .error .keyError := by
  unfold newFrame
  obtain ⟨t1, t2, _⟩ := ht 1 (by omega) hpos
  rw [t1, shape_of (t 1) k t2, hn]
  simp only
  rw [if_neg (by omega), coordinatesOf_fresh w c hw hc hc2]
  simp only [Int.toNat_natCast]
  have hcols : (columnNames (k + 2) ++ ["width", "height"]).length = k + 5 := by
    rcases hk with rfl | rfl <;> decide
  obtain ⟨rows, e1, e2⟩ := loadAll_ok (w.csv w.cwd ch) t c n k _ hcols (fun i h1 h2 => ⟨(ht i h1 h2).1, (ht i h1 h2).2.1, (ht i h1 h2).2.2.1⟩)
  unfold buildFrame
  rw [e1]
  simp only [bind, Except.bind]
  rw [if_neg (by omega)]
  have hrow : ∀ r ∈ ((List.range n).map fun (i : ℕ) => rows (i + 1)).flatten, ∃ (p q a : ℤ) (rest : List Cell),
      r = some (p : ℚ) :: some (q : ℚ) :: some (a : ℚ) :: rest := by
    intro r hr
    obtain ⟨p, q, i, j, v, w, h, h1, h2, h3, rfl⟩ := rows_shape t c n rows e2 r hr
    obtain ⟨a, rest, hv⟩ := (ht i h1 h2).2.2.2 (j, v) h3
    simp only at hv
    exact ⟨p, q, a, rest.map some ++ [w, h], by rw [hv]; simp⟩
  generalize ((List.range n).map fun (i : ℕ) => rows (i + 1)).flatten = R at hrow ⊢
  have c0 : castCol ⟨columnNames (k + 2) ++ ["width", "height"], R⟩ "img_id" = .ok ⟨columnNames (k + 2) ++ ["width", "height"], R⟩ :=
    castCol_id _ _ _ 0 (by rcases hk with rfl | rfl <;> decide) (by rcases hk with rfl | rfl <;> decide) (by
      intro r hr
      obtain ⟨p, q, a, rest, rfl⟩ := hrow r hr
      exact castAt_int p _)
  have c1 : castCol ⟨columnNames (k + 2) ++ ["width", "height"], R⟩ "led_id" = .ok ⟨columnNames (k + 2) ++ ["width", "height"], R⟩ :=
    castCol_id _ _ _ 1 (by rcases hk with rfl | rfl <;> decide) (by rcases hk with rfl | rfl <;> decide) (by
      intro r hr
      obtain ⟨p, q, a, rest, rfl⟩ := hrow r hr
      exact castAt_succ _ _ _ (castAt_int q _))
  have c2 : castCol ⟨columnNames (k + 2) ++ ["width", "height"], R⟩ "led_array_id" = .ok ⟨columnNames (k + 2) ++ ["width", "height"], R⟩ :=
    castCol_id _ _ _ 2 (by rcases hk with rfl | rfl <;> decide) (by rcases hk with rfl | rfl <;> decide) (by
      intro r hr
      obtain ⟨p, q, a, rest, rfl⟩ := hrow r hr
      exact castAt_succ _ _ _ (castAt_succ _ _ _ (castAt_int a _)))
  have c3 : castCol ⟨columnNames (k + 2) ++ ["width", "height"], R⟩ "max_col_val" = .error .keyError :=
    if_neg (show "max_col_val" ∉ columnNames (k + 2) ++ ["width", "height"] by rcases hk with rfl | rfl <;> decide)
  simp only [List.foldlM_cons, c0, c1, c2, c3, bind, Except.bind]

/-! ### C78 -/

/-- **C78.** With at least two LEDs in every image all results are loaded. -/
theorem C78_two_partial (w : HdfWorld) (ch n k : ℕ) (t : ℕ → List (ℕ × List ℚ)) (c : Option (List (ℕ × List ℚ × ℚ × ℚ)))
    (h : GoodDir w ch n k t c) (hw : w.cache = none) (hb : w.binary w.cwd ch = none) :
    ∃ (f : DataTable) (rows : ℕ → List (List Cell)), (readHdf w ch w.cwd).1 = .ok f ∧
      f.rows = ((List.range n).map fun (i : ℕ) => rows (i + 1)).flatten ∧
      ∀ i, 1 ≤ i → i ≤ n → RowsOfImage (t i) c i (rows i) := by
  obtain ⟨f, rows, h1, h2, h3, h4⟩ := C72_content w ch n k t c h hw
  exact ⟨f, rows, C72_first_partial w ch f hb h1, h3, h4⟩

/-- Refuted: results of a single LED cannot be loaded. -/
theorem C78_single_false (w : HdfWorld) (ch : ℕ) (r : List ℚ) (h : w.csv w.cwd ch 1 = some [r]) :
    (newFrame w ch).1 = .error .indexError := by
  have h1 : (readTable (some [r]) false).bind NpArr.shape1 = .error .indexError := by
    unfold readTable loadtxt
    match r with
    | [] => rfl
    | [x] => rfl
    | x :: y :: r => rfl
  unfold newFrame
  rw [h, h1]

/-- Ids of an LED array, one for each line. -/
def asIds (ids : List ℕ) : List (List ℚ) := ids.map fun (i : ℕ) => [(i : ℚ)]

theorem loadtxt_ids (ids : List ℕ) (h : 2 ≤ ids.length) : loadtxt (asIds ids) = .ok (.vec (ids.map fun (i : ℕ) => (i : ℚ))) := by
  match ids, h with
  | a :: b :: rest, _ =>
    unfold asIds loadtxt
    simp only [List.map_cons]
    rw [if_pos]
    · congr 3
      simp only [List.flatten_cons, List.singleton_append, List.cons.injEq, true_and]
      induction rest with
      | nil => rfl
      | cons x l ih => rw [List.map_cons, List.flatten_cons, ih (by simp)]; rfl
    · intro s hs
      rw [List.mem_cons, List.mem_map] at hs
      rcases hs with rfl | ⟨x, _, rfl⟩ <;> rfl

/-- **C78.** The LEDs of an array with at least two LEDs get the positions of their rows in the coordinate file. -/
theorem C78_array_partial (ids : List ℕ) (rows : List (List ℚ)) (k : ℕ) (h2 : 2 ≤ ids.length) (hr : 2 ≤ rows.length)
    (hk : ∀ r ∈ rows, r.length = k + 6) (hi : ∀ i ∈ ids, i < rows.length) :
    ∃ leds, setLeds (asIds ids) rows = .ok leds ∧ leds.map (·.1) = ids ∧
      ∀ i x y z, (i, x, y, z) ∈ leds → ∃ a b c rest, rows[i]? = some (a :: b :: c :: x :: y :: z :: rest) := by
  have hex : ∀ i : ℕ, ∃ p : ℚ × ℚ × ℚ, i < rows.length → ∃ a b c rest, rows[i]? = some (a :: b :: c :: p.1 :: p.2.1 :: p.2.2 :: rest) := by
    intro i
    by_cases h : i < rows.length
    · have hl := hk _ (List.getElem_mem h)
      match hr : rows[i], hl with
      | a :: b :: c :: x :: y :: z :: rest, _ =>
        exact ⟨(x, y, z), fun _ => ⟨a, b, c, rest, by rw [List.getElem?_eq_getElem h, hr]⟩⟩
    · exact ⟨(0, 0, 0), fun h' => absurd h' h⟩
  choose p hp using hex
  have hpos : arrayPositions (.mat rows) ids = .ok (ids.map p) := by
    unfold arrayPositions
    simp only
    rw [if_neg (by rintro rfl; simp at h2)]
    apply mapM_ok
    intro i him
    obtain ⟨a, b, c, rest, he⟩ := hp i (hi i him)
    rw [he]
  refine ⟨ids.zip (ids.map p), ?_, ?_, ?_⟩
  · unfold setLeds
    rw [loadtxt_ids ids h2, loadtxt_mat rows (k + 4) hr (fun r hr' => by rw [hk r hr'])]
    simp only [bind, Except.bind]
    have : (ids.map fun i : ℕ => (i : ℚ)).map (fun x => ⌊x⌋.toNat) = ids := by
      rw [List.map_map]
      conv_rhs => rw [← List.map_id ids]
      apply List.map_congr_left
      intro i _
      simp
    rw [this, hpos]
  · exact List.map_fst_zip (by simp)
  · intro i x y z hm
    obtain ⟨j, hj, hj'⟩ := List.getElem_of_mem hm
    rw [List.getElem_zip, List.getElem_map, Prod.mk.injEq] at hj'
    obtain ⟨e1, e2⟩ := hj'
    have hj2 : j < ids.length := by simp at hj; exact hj
    obtain ⟨a, b, c, rest, he⟩ := hp ids[j] (hi _ (List.getElem_mem hj2))
    rw [e1] at e2 he
    refine ⟨a, b, c, rest, ?_⟩
    rw [he, e2]

/-- Refuted: an LED array with one LED cannot be analysed. -/
theorem C78_array_false (i : ℕ) (rows : List (List ℚ)) : setLeds (asIds [i]) rows = .error .typeError := rfl

/-- **C78.** With at least two LEDs step 3 finds the search area of each. -/
theorem C78_search_area_partial (t : List (ℕ × List ℚ)) (h2 : 2 ≤ t.length) (i id : ℕ) (x y : ℤ)
    (ht : ∀ r ∈ t, r.2.length = 2) (hi : t[i]? = some (id, [(x : ℚ), (y : ℚ)])) :
    searchArea (some (asTable t)) i = .ok (x, y) := by
  unfold searchArea
  rw [readTable_mat (asTable t) 1 (by unfold asTable; rw [List.length_map]; exact h2) (asTable_length t 1 ht)]
  simp only [bind, Except.bind]
  unfold asTable
  rw [List.getElem?_map, hi]
  simp [truncZero_ofInt]

/-- Refuted: with a single LED step 3 fails. -/
theorem C78_search_area_false (r : List ℚ) (i : ℕ) : searchArea (some [r]) i = .error .indexError := by
  unfold searchArea readTable loadtxt
  match r with
  | [] => rfl
  | [x] => rfl
  | x :: y :: r => rfl

/-! ### C89: repeated colour correction -/

/-- **C89.** Adding a column twice is the same as adding it once, so the repeated colour correction does no harm. -/
theorem C89_column_again (f g : DataTable) (name : String) (values : List ℚ) (hr : ∀ r ∈ f.rows, r.length = f.cols.length)
    (h : setColumn f name values = .ok g) : setColumn g name values = .ok g := by
  unfold setColumn at h
  split at h
  · cases h
  · rename_i hl
    have hl : values.length = f.rows.length := not_not.1 hl
    split at h
    · rename_i hm
      have h := Except.ok.inj h
      subst h
      unfold setColumn
      simp only
      rw [if_neg (by simp [hl]), if_pos hm]
      congr 2
      apply List.ext_getElem
      · simp [hl]
      · intro i h1 h2
        simp
    · rename_i hm
      have h := Except.ok.inj h
      subst h
      unfold setColumn
      simp only
      rw [if_neg (by simp [hl]), if_pos (by simp)]
      congr 2
      apply List.ext_getElem
      · simp [hl]
      · intro i h1 h2
        simp only [List.getElem_zipWith]
        have hi : i < f.rows.length := by simp at h2; omega
        have he : (f.cols ++ [name]).idxOf name = f.rows[i].length := by
          rw [hr _ (List.getElem_mem hi), List.idxOf_append_of_notMem hm]
          simp
        have hset : ∀ (a : List Cell) (n : ℕ) (v : Cell), n = a.length → (a ++ [v]).set n v = a ++ [v] := by
          intro a n v hn
          subst hn
          rw [List.set_append_right _ _ (le_refl _)]
          simp
        exact hset _ _ _ he

/-- The value of a column in a row. -/
def DataTable.value (f : DataTable) (row : ℕ) (name : String) : Option Cell :=
  if name ∈ f.cols then (f.rows[row]?).bind fun r => r[f.cols.idxOf name]? else none

/-- **C97.** After a column was added, reading the channel gives its values and those of all other columns as before; other
channels stay as they are. -/
theorem C97_column_stored (w : HdfWorld) (ch : ℕ) (name : String) (values : List ℚ) (f : DataTable)
    (hf : w.binary w.cwd ch = some f) (hr : ∀ r ∈ f.rows, r.length = f.cols.length) (hl : values.length = f.rows.length) :
    (extendHdf w ch name values).1 = .ok () ∧
    (∃ g, readHdf (extendHdf w ch name values).2 ch w.cwd = (.ok g, (extendHdf w ch name values).2) ∧
      g.rows.length = f.rows.length ∧ (∀ i v, values[i]? = some v → g.value i name = some (some v)) ∧
      ∀ other ≠ name, ∀ i, g.value i other = f.value i other) ∧
    ∀ d ch', ¬ (d = w.cwd ∧ ch' = ch) → (extendHdf w ch name values).2.binary d ch' = w.binary d ch' := by
  have key : ∃ g, setColumn f name values = .ok g ∧ g.rows.length = f.rows.length ∧
      (∀ i v, values[i]? = some v → g.value i name = some (some v)) ∧ ∀ other ≠ name, ∀ i, g.value i other = f.value i other := by
    by_cases hm : name ∈ f.cols
    · refine ⟨⟨f.cols, List.zipWith (fun r v => r.set (f.cols.idxOf name) (some v)) f.rows values⟩, ?_, by simp [hl], ?_, ?_⟩
      · unfold setColumn; rw [if_neg (by simp [hl]), if_pos hm]
      · intro i v hv
        have hi : i < f.rows.length := by
          rw [← hl]; exact (List.getElem?_eq_some_iff.1 hv).1
        unfold DataTable.value
        simp only
        rw [if_pos hm, List.getElem?_zipWith, List.getElem?_eq_getElem hi, hv]
        simp only [Option.bind_some]
        rw [List.getElem?_set_self]
        rw [hr _ (List.getElem_mem hi)]
        exact List.idxOf_lt_length_of_mem hm
      · intro other ho i
        unfold DataTable.value
        simp only
        by_cases hmo : other ∈ f.cols
        · rw [if_pos hmo, if_pos hmo, List.getElem?_zipWith]
          by_cases hi : i < f.rows.length
          · have hi' : i < values.length := by omega
            rw [List.getElem?_eq_getElem hi, List.getElem?_eq_getElem hi']
            simp only [Option.bind_some]
            rw [List.getElem?_set_ne]
            intro he
            apply ho
            rw [← List.getElem_idxOf (List.idxOf_lt_length_of_mem hmo), ← List.getElem_idxOf (List.idxOf_lt_length_of_mem hm)]
            congr 1
            exact he.symm
          · rw [List.getElem?_eq_none (by omega : f.rows.length ≤ i)]
        · rw [if_neg hmo, if_neg hmo]
    · refine ⟨⟨f.cols ++ [name], List.zipWith (fun r v => r ++ [some v]) f.rows values⟩, ?_, by simp [hl], ?_, ?_⟩
      · unfold setColumn; rw [if_neg (by simp [hl]), if_neg hm]
      · intro i v hv
        have hi : i < f.rows.length := by
          rw [← hl]; exact (List.getElem?_eq_some_iff.1 hv).1
        unfold DataTable.value
        simp only
        rw [if_pos (by simp), List.getElem?_zipWith, List.getElem?_eq_getElem hi, hv]
        simp only [Option.bind_some]
        have he : (f.cols ++ [name]).idxOf name = f.rows[i].length := by
          rw [hr _ (List.getElem_mem hi), List.idxOf_append_of_notMem hm]
          simp
        rw [he]
        simp
      · intro other ho i
        unfold DataTable.value
        simp only
        by_cases hmo : other ∈ f.cols
        · rw [if_pos (by simp [hmo]), if_pos hmo, List.getElem?_zipWith, List.idxOf_append_of_mem hmo]
          by_cases hi : i < f.rows.length
          · have hi' : i < values.length := by omega
            rw [List.getElem?_eq_getElem hi, List.getElem?_eq_getElem hi']
            simp only [Option.bind_some]
            rw [List.getElem?_append_left]
            rw [hr _ (List.getElem_mem hi)]
            exact List.idxOf_lt_length_of_mem hmo
          · rw [List.getElem?_eq_none (by omega : f.rows.length ≤ i)]
        · rw [if_neg (by simp [hmo, ho]), if_neg hmo]
  obtain ⟨g, h1, h2, h3, h4⟩ := key
  have he : extendHdf w ch name values = (.ok (), w.setBinary w.cwd ch g) := by
    unfold extendHdf
    rw [hf]
    simp only
    rw [h1]
  rw [he]
  refine ⟨rfl, ⟨g, ?_, h2, h3, h4⟩, ?_⟩
  · unfold readHdf
    have : (w.setBinary w.cwd ch g).binary w.cwd ch = some g := by simp [HdfWorld.setBinary]
    simp only [this]
  · intro d ch' hne
    simp only [HdfWorld.setBinary]
    rw [if_neg hne]

/-! ### Examples -/

/-- Two images with two LEDs each, coordinates calculated, no binary file. -/
def exampleDir : HdfWorld where
  csv := fun d ch i => if d = ['a'] ∧ ch = 0 then
      (if i = 1 then some [[5, 0, 7, 9, 1], [3, 0, 8, 6, 2]] else if i = 2 then some [[3, 0, 4, 4, 1], [5, 0, 2, 2, 1]] else none)
    else none
  coord := fun d => if d = ['a'] then some [[3, 10, 20, 1, 2, 3, 4, 5], [5, 11, 21, 1, 2, 3, 6, 7]] else none
  binary := fun _ _ => none
  count := fun _ => .ok 2
  cwd := ['a']
  cache := none

/-- Its table. -/
def exampleFrame : DataTable :=
  ⟨["img_id", "led_id", "led_array_id", "sum_col_val", "mean_col_val", "max_col_val", "width", "height"],
   [[some 1, some 3, some 0, some 8, some 6, some 2, some 4, some 5],
    [some 1, some 5, some 0, some 7, some 9, some 1, some 6, some 7],
    [some 2, some 3, some 0, some 4, some 4, some 1, some 4, some 5],
    [some 2, some 5, some 0, some 2, some 2, some 1, some 6, some 7]]⟩

example : (readHdf exampleDir 0 exampleDir.cwd).1 = .ok exampleFrame := by decide +kernel

/-- Step 3 is repeated with other values, but the analysis shows the old ones. -/
example : (readHdf (HdfOp.run (HdfOp.run exampleDir (.analyse 0)) (.step3 0 fun i => if i = 1 then some [[3, 0, 1, 1, 1], [5, 0, 1, 1, 1]] else none))
    0 ['a']).1 = .ok exampleFrame := by decide +kernel

example : ((readHdf (HdfOp.run exampleDir (.step3 0 fun i => if i = 1 then some [[3, 0, 1, 1, 1], [5, 0, 1, 1, 1]] else none)) 0 ['a']).1.map
    fun f => f.rows.head?) = .ok (some [some 1, some 3, some 0, some 1, some 1, some 1, some 4, some 5]) := by decide +kernel

example : ((createBinary (createBinary exampleDir 0).2 0).2.binary ['a'] 0).map (·.rows.length) = some 8 := by decide +kernel

example : (readHdf { exampleDir with cwd := ['b'] } 0 ['a']).1 = .error .fileNotFound := by decide +kernel

example : (newFrame { exampleDir with count := fun _ => .ok 3 } 0).1 = .error .attributeError := by decide +kernel

example : (newFrame { exampleDir with csv := fun _ _ _ => some [[3, 0, 1, 1], [5, 0, 1, 1]] } 0).1 = .error .keyError := by decide +kernel

example : (newFrame { exampleDir with csv := fun _ _ _ => some [[3, 0, 1, 1, 1]] } 0).1 = .error .indexError := by decide +kernel

example : setLeds [[1], [0]] [[0, 10, 20, 1, 2, 3, 4, 5], [1, 11, 21, 6, 7, 8, 6, 7]] = .ok [(1, 6, 7, 8), (0, 1, 2, 3)] := by
  decide +kernel

example : searchArea (some [[0, 10, 20], [1, 11, 21]]) 1 = .ok (11, 21) := by decide +kernel

example : setColumn ⟨["a"], [[some 1], [some 2]]⟩ "b" [3, 4] = .ok ⟨["a", "b"], [[some 1, some 3], [some 2, some 4]]⟩ := by
  decide +kernel

example : GoodDir exampleDir 0 2 3 (fun i => if i = 1 then [(5, [0, 7, 9, 1]), (3, [0, 8, 6, 2])] else [(3, [0, 4, 4, 1]), (5, [0, 2, 2, 1])])
    (some [(3, [10, 20, 1, 2, 3], 4, 5), (5, [11, 21, 1, 2, 3], 6, 7)]) where
  count := rfl
  pos := by decide
  width := .inl rfl
  coords := by decide +kernel
  coords2 := by
    intro c' h
    rw [← Option.some.inj h]
    exact ⟨by decide, 5, by decide +kernel⟩
  tables := by
    intro i h1 h2
    have hi : i = 1 ∨ i = 2 := by omega
    have hc : ∀ l : List (ℕ × List ℚ), (∀ r ∈ l, r.1 = 3 ∨ r.1 = 5) →
        GoodCoords (some [(3, [10, 20, 1, 2, 3], 4, 5), (5, [11, 21, 1, 2, 3], 6, 7)]) l := by
      intro l hl c' h
      rw [← Option.some.inj h]
      exact ⟨by simp, fun r hr => by rcases hl r hr with h | h <;> simp [h]⟩
    have hint : ∀ (a s m : ℤ) (x : ℚ), IntRow [(a : ℚ), (s : ℚ), x, (m : ℚ)] := fun a s m x => ⟨a, s, m, x, [], rfl⟩
    rcases hi with rfl | rfl
    · refine ⟨by decide +kernel, ⟨by decide, by decide, by decide +kernel⟩, hc _ (by decide +kernel), ?_⟩
      intro r hr
      simp only [if_true, List.mem_cons, List.not_mem_nil, or_false] at hr
      rcases hr with rfl | rfl
      · simpa using hint 0 7 1 9
      · simpa using hint 0 8 2 6
    · refine ⟨by decide +kernel, ⟨by decide, by decide, by decide +kernel⟩, hc _ (by decide +kernel), ?_⟩
      intro r hr
      simp only [OfNat.ofNat_ne_one, if_false, List.mem_cons, List.not_mem_nil, or_false] at hr
      rcases hr with rfl | rfl
      · simpa using hint 0 4 1 4
      · simpa using hint 0 2 1 2

end Ledsa
