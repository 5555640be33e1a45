import Verif.Model.ColourTables
import Verif.Props.Binary
import Verif.Props.Analysis
import Verif.Props.Pipeline

/-!
# C143: colour correction of recorded channels

Specification: the corrected column of channel `c` holds, for every row, the `c`-th entry of the inverse matrix times the values
of all channels in this row. For channels that were mixed by the matrix these are the values before mixing.
-/

namespace Ledsa
open Matrix

/-! ### Columns of tables -/

/-- A table with a column set. -/
def DataTable.withColumn (f : DataTable) (name : String) (values : List ℚ) : DataTable :=
  if name ∈ f.cols then ⟨f.cols, List.zipWith (fun r v => r.set (f.cols.idxOf name) (some v)) f.rows values⟩
  else ⟨f.cols ++ [name], List.zipWith (fun r v => r ++ [some v]) f.rows values⟩

/-- All rows have a number for each column. -/
def DataTable.Rect (f : DataTable) : Prop := ∀ r ∈ f.rows, r.length = f.cols.length

theorem setColumn_eq (f : DataTable) (name : String) (values : List ℚ) (h : values.length = f.rows.length) :
    setColumn f name values = .ok (f.withColumn name values) := by
  unfold setColumn DataTable.withColumn
  rw [if_neg (by simp [h])]
  split <;> rfl

theorem withColumn_length (f : DataTable) (name : String) (values : List ℚ) (h : values.length = f.rows.length) :
    (f.withColumn name values).rows.length = f.rows.length := by
  unfold DataTable.withColumn; split <;> simp [h]

theorem withColumn_mem (f : DataTable) (name : String) (values : List ℚ) : name ∈ (f.withColumn name values).cols := by
  unfold DataTable.withColumn
  split
  · assumption
  · simp

theorem withColumn_mem_other (f : DataTable) (name other : String) (values : List ℚ) (h : other ≠ name) :
    other ∈ (f.withColumn name values).cols ↔ other ∈ f.cols := by
  unfold DataTable.withColumn
  split
  · rfl
  · simp [h]

theorem withColumn_rect (f : DataTable) (name : String) (values : List ℚ) (hr : f.Rect) : (f.withColumn name values).Rect := by
  unfold DataTable.withColumn DataTable.Rect at *
  split
  · intro r hm
    obtain ⟨i, hi, rfl⟩ := List.getElem_of_mem hm
    simp only [List.getElem_zipWith, List.length_set]
    exact hr _ (List.getElem_mem _)
  · intro r hm
    obtain ⟨i, hi, rfl⟩ := List.getElem_of_mem hm
    simp only [List.getElem_zipWith, List.length_append, List.length_cons, List.length_nil]
    rw [hr _ (List.getElem_mem _)]

/-- Row `i` of a table with a column set. -/
theorem withColumn_row (f : DataTable) (name : String) (values : List ℚ) (h : values.length = f.rows.length) (i : ℕ)
    (hi : i < f.rows.length) : (f.withColumn name values).rows[i]'(by rw [withColumn_length f name values h]; exact hi) =
      if name ∈ f.cols then f.rows[i].set (f.cols.idxOf name) (some (values[i]'(by omega)))
      else f.rows[i] ++ [some (values[i]'(by omega))] := by
  unfold DataTable.withColumn
  by_cases hm : name ∈ f.cols
  · simp [hm]
  · simp [hm]

theorem cell_withColumn_self (f : DataTable) (hr : f.Rect) (name : String) (values : List ℚ)
    (h : values.length = f.rows.length) :
    (f.withColumn name values).rows.map ((f.withColumn name values).cell name) = values.map some := by
  apply List.ext_getElem
  · simp [withColumn_length f name values h, h]
  intro i h1 h2
  have hi : i < f.rows.length := by simpa [h] using h2
  rw [List.getElem_map, List.getElem_map, withColumn_row f name values h i hi]
  have hl := hr _ (List.getElem_mem hi)
  unfold DataTable.cell DataTable.withColumn
  by_cases hm : name ∈ f.cols
  · simp only [if_pos hm]
    rw [List.getElem?_set_self (by rw [hl]; exact List.idxOf_lt_length_of_mem hm)]
    rfl
  · simp only [if_neg hm]
    rw [List.idxOf_append_of_notMem hm]
    have : f.cols.length + List.idxOf name [name] = f.rows[i].length := by rw [hl]; simp
    rw [this]
    simp

theorem cell_withColumn_other (f : DataTable) (hr : f.Rect) (name other : String) (values : List ℚ)
    (h : values.length = f.rows.length) (ho : other ≠ name) :
    (f.withColumn name values).rows.map ((f.withColumn name values).cell other) = f.rows.map (f.cell other) := by
  apply List.ext_getElem
  · simp [withColumn_length f name values h]
  intro i h1 h2
  have hi : i < f.rows.length := by simpa using h2
  rw [List.getElem_map, List.getElem_map, withColumn_row f name values h i hi]
  have hl := hr _ (List.getElem_mem hi)
  generalize f.rows[i] = row at hl ⊢
  unfold DataTable.cell DataTable.withColumn
  by_cases hm : name ∈ f.cols
  · simp only [if_pos hm]
    rw [List.getElem?_set_ne]
    intro he
    by_cases hmo : other ∈ f.cols
    · apply ho
      rw [← List.getElem_idxOf (List.idxOf_lt_length_of_mem hmo), ← List.getElem_idxOf (List.idxOf_lt_length_of_mem hm)]
      congr 1
      exact he.symm
    · rw [List.idxOf_of_notMem hmo] at he
      have := List.idxOf_lt_length_of_mem hm
      omega
  · simp only [if_neg hm]
    by_cases hmo : other ∈ f.cols
    · rw [List.idxOf_append_of_mem hmo, List.getElem?_append_left]
      rw [hl]
      exact List.idxOf_lt_length_of_mem hmo
    · rw [List.idxOf_append_of_notMem hmo, List.idxOf_of_notMem hmo]
      rw [List.idxOf_of_notMem (by simpa using ho : other ∉ [name]), List.getElem?_eq_none (by simp [hl]),
        List.getElem?_eq_none (by rw [hl])]

theorem withColumn_twice (f : DataTable) (hr : f.Rect) (name : String) (values : List ℚ) (h : values.length = f.rows.length) :
    (f.withColumn name values).withColumn name values = f.withColumn name values := by
  have hm := withColumn_mem f name values
  have hl := withColumn_length f name values h
  have hc : ((f.withColumn name values).withColumn name values).cols = (f.withColumn name values).cols := by
    generalize f.withColumn name values = g at hm
    unfold DataTable.withColumn
    rw [if_pos hm]
  have hrow : ((f.withColumn name values).withColumn name values).rows = (f.withColumn name values).rows := by
    apply List.ext_getElem
    · rw [withColumn_length _ _ _ (by rw [hl]; exact h)]
    intro i h1 h2
    rw [withColumn_row _ name values (by rw [hl]; exact h) i h2, if_pos hm]
    apply List.ext_getElem?
    intro k
    rw [List.getElem?_set]
    split
    · rename_i hk
      subst hk
      have hi : i < f.rows.length := by omega
      have := congrArg (fun l : List Cell => l[i]?) (cell_withColumn_self f hr name values h)
      simp only [List.getElem?_map] at this
      rw [List.getElem?_eq_getElem h2, List.getElem?_eq_getElem (by omega : i < values.length)] at this
      simp only [Option.map_some, Option.some.injEq] at this
      unfold DataTable.cell at this
      have hk : (f.withColumn name values).cols.idxOf name < (f.withColumn name values).rows[i].length := by
        rw [withColumn_rect f name values hr _ (List.getElem_mem h2)]
        exact List.idxOf_lt_length_of_mem hm
      rw [if_pos hk]
      rw [List.getElem?_eq_getElem hk] at this ⊢
      simp only [Option.join] at this
      simp only [Option.bind_some, id] at this
      rw [this]
    · rfl
  cases hx : (f.withColumn name values).withColumn name values
  rw [hx] at hc hrow
  cases hy : f.withColumn name values
  rw [hy] at hc hrow
  simp_all

/-- Keys do not change when another column is set. -/
theorem keys_withColumn (f : DataTable) (hr : f.Rect) (name : String) (values : List ℚ) (h : values.length = f.rows.length)
    (h1 : "img_id" ≠ name) (h2 : "led_id" ≠ name) : (f.withColumn name values).keys = f.keys := by
  have a := cell_withColumn_other f hr name "img_id" values h h1
  have b := cell_withColumn_other f hr name "led_id" values h h2
  have e : ∀ g : DataTable, g.keys = (g.rows.map (g.cell "img_id")).zip (g.rows.map (g.cell "led_id")) := by
    intro g; rw [List.zip_map']; rfl
  rw [e, e f, a, b]

theorem keyed_withColumn (f : DataTable) (hr : f.Rect) (name prop : String) (values : List ℚ)
    (h : values.length = f.rows.length) (h1 : "img_id" ≠ name) (h2 : "led_id" ≠ name) (h3 : prop ≠ name) :
    (f.withColumn name values).keyed prop = f.keyed prop := by
  unfold DataTable.keyed
  rw [keys_withColumn f hr name values h h1 h2, cell_withColumn_other f hr name prop values h h3]
  simp only [withColumn_mem_other f name prop values h3]

/-! ### The name of the corrected column -/

theorem cc_ne (prop : String) : prop ≠ prop ++ "_cc" := by
  intro h
  have := congrArg String.length h
  rw [String.length_append] at this
  have : "_cc".length = 3 := by decide
  omega

theorem cc_ne_of_last (s prop : String) (h : s.toList.getLast? ≠ some 'c') : s ≠ prop ++ "_cc" := by
  rintro rfl
  apply h
  rw [String.toList_append]
  have : "_cc".toList = ['_', 'c', 'c'] := by decide
  rw [this, List.getLast?_append]
  rfl

theorem img_ne_cc (prop : String) : "img_id" ≠ prop ++ "_cc" := cc_ne_of_last _ _ (by decide)
theorem led_ne_cc (prop : String) : "led_id" ≠ prop ++ "_cc" := cc_ne_of_last _ _ (by decide)
theorem arr_ne_cc (prop : String) : "led_array_id" ≠ prop ++ "_cc" := cc_ne_of_last _ _ (by decide)

/-! ### Reading -/

theorem readColumns_present (prop : String) (w : HdfWorld) (f : ℕ → DataTable) (col : ℕ → List ((Cell × Cell) × Cell)) :
    ∀ chs : List ℕ, (∀ c ∈ chs, w.binary w.cwd c = some (f c)) → (∀ c ∈ chs, (f c).keyed prop = .ok (col c)) →
      readColumns prop chs w = (.ok (chs.map col), w)
  | [], _, _ => rfl
  | c :: chs, h, hk => by
    have hr : readHdf w c w.cwd = (.ok (f c), w) := by
      unfold readHdf; rw [h c (by simp)]
    unfold readColumns
    rw [hr]
    simp only
    rw [hk c (by simp)]
    simp only
    rw [readColumns_present prop w f col chs (fun d hd => h d (by simp [hd])) (fun d hd => hk d (by simp [hd]))]
    rfl

/-- With all binary files there, reading changes nothing. -/
theorem readColumns_world (prop : String) (w : HdfWorld) :
    ∀ chs : List ℕ, (∀ c ∈ chs, (w.binary w.cwd c).isSome) → (readColumns prop chs w).2 = w
  | [], _ => rfl
  | c :: chs, h => by
    obtain ⟨f, hf⟩ := Option.isSome_iff_exists.1 (h c (by simp))
    have hr : readHdf w c w.cwd = (.ok f, w) := by
      unfold readHdf; rw [hf]
    have ih := readColumns_world prop w chs (fun d hd => h d (by simp [hd]))
    unfold readColumns
    rw [hr]
    simp only
    cases f.keyed prop with
    | error e => rfl
    | ok k =>
      simp only
      revert ih
      cases readColumns prop chs w with
      | mk a b => cases a <;> exact id

/-- Every table of one world is in the other, and the working directory is the same. -/
def HdfWorld.Keeps (w w' : HdfWorld) : Prop := w'.cwd = w.cwd ∧ ∀ d k g, w.binary d k = some g → w'.binary d k = some g

theorem HdfWorld.Keeps.trans {a b c : HdfWorld} (h1 : a.Keeps b) (h2 : b.Keeps c) : a.Keeps c :=
  ⟨h2.1.trans h1.1, fun d k g hg => h2.2 d k g (h1.2 d k g hg)⟩

theorem readHdf_keeps (w w' : HdfWorld) (ch : ℕ) (f : DataTable) (h : readHdf w ch w.cwd = (.ok f, w')) :
    w.Keeps w' ∧ w'.binary w.cwd ch = some f := by
  unfold readHdf at h
  cases hb : w.binary w.cwd ch with
  | some g =>
    rw [hb] at h
    simp only [Prod.mk.injEq, Except.ok.injEq] at h
    obtain ⟨rfl, rfl⟩ := h
    exact ⟨⟨rfl, fun _ _ _ h => h⟩, hb⟩
  | none =>
    rw [hb] at h
    simp only at h
    unfold createBinary at h
    simp only [hb] at h
    cases hn : (newFrame w ch).1 with
    | error e => rw [hn] at h; simp at h
    | ok t =>
      rw [hn] at h
      simp only [HdfWorld.setBinary, and_self, if_true, Prod.mk.injEq, Except.ok.injEq] at h
      obtain ⟨rfl, rfl⟩ := h
      refine ⟨⟨rfl, ?_⟩, by simp⟩
      intro d k g hg
      simp only
      rw [if_neg, hg]
      rintro ⟨rfl, rfl⟩
      rw [hb] at hg
      cases hg

theorem readColumns_keeps (prop : String) : ∀ (chs : List ℕ) (w w' : HdfWorld) (cols : List (List ((Cell × Cell) × Cell))),
    readColumns prop chs w = (.ok cols, w') → w.Keeps w' ∧ ∀ w'' : HdfWorld, w'.Keeps w'' → readColumns prop chs w'' = (.ok cols, w'')
  | [], w, w', cols, h => by
    simp only [readColumns, Prod.mk.injEq, Except.ok.injEq] at h
    obtain ⟨rfl, rfl⟩ := h
    exact ⟨⟨rfl, fun _ _ _ h => h⟩, fun _ _ => rfl⟩
  | c :: chs, w, w', cols, h => by
    unfold readColumns at h
    rcases hr : readHdf w c w.cwd with ⟨r, w1⟩
    rw [hr] at h
    cases r with
    | error e => simp at h
    | ok f =>
      simp only at h
      cases hk : f.keyed prop with
      | error e => rw [hk] at h; simp at h
      | ok k =>
        rw [hk] at h
        simp only at h
        rcases hc : readColumns prop chs w1 with ⟨r2, w2⟩
        rw [hc] at h
        cases r2 with
        | error e => simp at h
        | ok cs =>
          simp only [Prod.mk.injEq, Except.ok.injEq] at h
          obtain ⟨rfl, rfl⟩ := h
          obtain ⟨h1, h2⟩ := readHdf_keeps w w1 c f hr
          obtain ⟨h3, h4⟩ := readColumns_keeps prop chs w1 w2 cs hc
          refine ⟨h1.trans h3, ?_⟩
          intro w'' hw
          have hb : w''.binary w''.cwd c = some f := by
            rw [hw.1, h3.1, h1.1]
            exact hw.2 _ _ _ (h3.2 _ _ _ h2)
          unfold readColumns
          have : readHdf w'' c w''.cwd = (.ok f, w'') := by
            unfold readHdf; rw [hb]
          rw [this]
          simp only
          rw [hk]
          simp only
          rw [h4 w'' hw]

/-! ### Storing -/

/-- The world with a column set in the tables of some channels of the working directory. -/
def HdfWorld.withColumns (w : HdfWorld) (name : String) (chs : List ℕ) (values : ℕ → List ℚ) : HdfWorld :=
  { w with binary := fun d ch => if d = w.cwd ∧ ch ∈ chs then (w.binary d ch).map fun f => f.withColumn name (values ch)
    else w.binary d ch }

theorem storeColumns_ok (n : ℕ) (name : String) (cc : List (List ℤ)) :
    ∀ (chs : List ℕ) (w : HdfWorld), chs.Nodup → (∀ c ∈ chs, c < n) →
      (∀ c ∈ chs, ∃ f, w.binary w.cwd c = some f ∧ cc.length = f.rows.length) →
      storeColumns n name cc chs w = (.ok (), w.withColumns name chs fun c => cc.map fun r => ((r.getD c 0 : ℤ) : ℚ))
  | [], w, _, _, _ => by
    unfold storeColumns HdfWorld.withColumns
    simp
  | c :: chs, w, hn, hlt, hf => by
    obtain ⟨f, h1, h2⟩ := hf c (by simp)
    have hc := hlt c (by simp)
    rw [List.nodup_cons] at hn
    unfold storeColumns
    rw [if_neg (by omega)]
    have he : extendHdf w c name (cc.map fun r => ((r.getD c 0 : ℤ) : ℚ)) =
        (.ok (), w.setBinary w.cwd c (f.withColumn name (cc.map fun r => ((r.getD c 0 : ℤ) : ℚ)))) := by
      unfold extendHdf
      rw [h1]
      simp only
      rw [setColumn_eq _ _ _ (by simpa using h2)]
    rw [he]
    simp only
    rw [storeColumns_ok n name cc chs _ hn.2 (fun d hd => hlt d (by simp [hd]))]
    · congr 1
      unfold HdfWorld.withColumns HdfWorld.setBinary
      simp only [HdfWorld.mk.injEq, true_and, and_true]
      funext d k
      by_cases hd : d = w.cwd
      · subst hd
        by_cases hk : k = c
        · subst hk
          simp [hn.1, h1]
        · simp [hk]
      · simp [hd]
    · intro d hd
      obtain ⟨g, h3, h4⟩ := hf d (by simp [hd])
      refine ⟨g, ?_, h4⟩
      have : d ≠ c := by rintro rfl; exact hn.1 hd
      simp only [HdfWorld.setBinary]
      rw [if_neg (by simp [this]), h3]

/-! ### Columns of the same keys -/

/-- The columns of tables with the same keys, side by side. -/
theorem beside_same {α : Type} [DecidableEq α] (keys : List α) (v : ℕ → ℕ → Cell) (chs : List ℕ) (hne : chs ≠ []) :
    besideEachOther (chs.map fun (c : ℕ) => keys.zip ((List.range keys.length).map (v c))) =
      .ok ((List.range keys.length).map fun (i : ℕ) => chs.map fun (c : ℕ) => v c i) := by
  have hk : ∀ c, (keys.zip ((List.range keys.length).map (v c))).map (·.1) = keys := by
    intro c
    rw [List.map_fst_zip]
    simp
  match chs, hne with
  | c :: cs, _ =>
    unfold besideEachOther
    simp only [List.map_cons]
    rw [if_pos]
    · congr 1
      have hl : (keys.zip ((List.range keys.length).map (v c))).length = keys.length := by simp
      rw [hl]
      apply List.map_congr_left
      intro i hi
      rw [List.mem_range] at hi
      have hg : ∀ d, ((keys.zip ((List.range keys.length).map (v d)))[i]?.map (·.2)).join = v d i := by
        intro d
        rw [List.getElem?_eq_getElem (by simpa using hi)]
        simp [List.getElem_zip]
      rw [hg, List.map_map]
      congr 1
      apply List.map_congr_left
      intro d _
      exact hg d
    · intro d hd
      rw [List.mem_map] at hd
      obtain ⟨e, _, rfl⟩ := hd
      rw [hk, hk]

/-! ### C143 -/

/-- The channels are recorded in the working directory: the table `f c` of channel `c` has `N` rows, all tables are about the same
images and LEDs, and `v c i` is the recorded value of channel `c` in row `i`. -/
structure RecordedTables (w : HdfWorld) (chs : List ℕ) (f : ℕ → DataTable) (prop : String) (N : ℕ) (v : ℕ → ℕ → ℚ) : Prop where
  table : ∀ c ∈ chs, w.binary w.cwd c = some (f c)
  rect : ∀ c ∈ chs, (f c).Rect
  rows : ∀ c ∈ chs, (f c).rows.length = N
  same : ∀ c ∈ chs, ∀ d ∈ chs, (f c).keys = (f d).keys
  value : ∀ c ∈ chs, ∀ i < N, (f c).value i prop = some (some (v c i))
  column : ∀ c ∈ chs, prop ∈ (f c).cols
  notKey : prop ≠ "img_id" ∧ prop ≠ "led_id"

theorem cells_of_value (f : DataTable) (prop : String) (hm : prop ∈ f.cols) (N : ℕ) (hN : f.rows.length = N) (v : ℕ → ℚ)
    (h : ∀ i < N, f.value i prop = some (some (v i))) :
    f.rows.map (f.cell prop) = (List.range N).map fun (i : ℕ) => some (v i) := by
  apply List.ext_getElem
  · simp [hN]
  intro i h1 h2
  have hi : i < N := by simpa using h2
  have := h i hi
  unfold DataTable.value at this
  rw [if_pos hm, List.getElem?_eq_getElem (by omega)] at this
  simp only [Option.bind_some] at this
  rw [List.getElem_map, List.getElem_map, List.getElem_range]
  unfold DataTable.cell
  rw [this]
  rfl

theorem RecordedTables.keyed {w : HdfWorld} {chs : List ℕ} {f : ℕ → DataTable} {prop : String} {N : ℕ} {v : ℕ → ℕ → ℚ}
    (h : RecordedTables w chs f prop N v) (d : ℕ) (hd : d ∈ chs) : ∀ c ∈ chs,
      (f c).keyed prop = .ok ((f d).keys.zip ((List.range (f d).keys.length).map fun (i : ℕ) => some (v c i))) := by
  intro c hc
  unfold DataTable.keyed
  rw [if_pos ⟨h.column c hc, h.notKey⟩, cells_of_value (f c) prop (h.column c hc) N (h.rows c hc) (v c) (h.value c hc),
    h.same c hc d hd]
  have : (f d).keys.length = N := by
    unfold DataTable.keys; rw [List.length_map]; exact h.rows d hd
  rw [this]

/-- The corrected values: row `i`, column `k`. -/
noncomputable def correctedValue {n : ℕ} (to16 : Int16Cast) (M : Matrix (Fin n) (Fin n) ℚ) (chs : List ℕ) (v : ℕ → ℕ → ℚ) (i : ℕ)
    (k : Fin n) : ℤ := to16.cast (∑ j : Fin n, M⁻¹ k j * v (chs.getD j 0) i)

theorem correctRow_some {n : ℕ} (to16 : Int16Cast) (nan : ℤ) (M : Matrix (Fin n) (Fin n) ℚ) (chs : List ℕ)
    (hlen : chs.length = n) (v : ℕ → ℕ → ℚ) (i : ℕ) :
    correctRow to16 nan M (chs.map fun (c : ℕ) => some (v c i)) = List.ofFn (correctedValue to16 M chs v i) := by
  have hm : (chs.map fun (c : ℕ) => (some (v c i) : Cell)).mapM id = some (chs.map fun (c : ℕ) => v c i) := by
    rw [List.mapM_map]
    exact mapM_option_some _ _ chs (fun a _ => rfl)
  unfold correctRow correctedValue
  simp only [hm]
  congr 1
  funext k
  congr 1
  apply Finset.sum_congr rfl
  intro j _
  congr 1
  have : (j : ℕ) < chs.length := by omega
  rw [List.getD_eq_getElem _ _ (by simpa using this), List.getElem_map, List.getD_eq_getElem _ _ this]

theorem colourCorrect_store {n : ℕ} (to16 : Int16Cast) (nan : ℤ) (M : Matrix (Fin n) (Fin n) ℚ) (hM : M.det ≠ 0)
    {w : HdfWorld} {chs : List ℕ} {f : ℕ → DataTable} {prop : String} {N : ℕ} {v : ℕ → ℕ → ℚ}
    (h : RecordedTables w chs f prop N v) (hne : chs ≠ []) (hlen : chs.length = n) :
    colourCorrect to16 nan M prop chs w =
      storeColumns n (prop ++ "_cc") ((List.range N).map fun (i : ℕ) => List.ofFn (correctedValue to16 M chs v i)) chs w := by
  obtain ⟨d, hd⟩ := List.exists_mem_of_ne_nil _ hne
  have hN : (f d).keys.length = N := by
    unfold DataTable.keys; rw [List.length_map]; exact h.rows d hd
  unfold colourCorrect
  rw [if_neg hM, readColumns_present prop w f _ chs h.table (h.keyed d hd)]
  simp only
  rw [beside_same (f d).keys (fun c i => some (v c i)) chs hne]
  simp only
  rw [if_neg (by simpa using hlen), List.map_map, hN]
  congr 1
  apply List.map_congr_left
  intro i _
  exact correctRow_some to16 nan M chs hlen v i

/-- The values stored for a channel. -/
noncomputable def ccColumn {n : ℕ} (to16 : Int16Cast) (M : Matrix (Fin n) (Fin n) ℚ) (chs : List ℕ) (v : ℕ → ℕ → ℚ) (N c : ℕ) :
    List ℚ := (List.range N).map fun (i : ℕ) => if hc : c < n then ((correctedValue to16 M chs v i ⟨c, hc⟩ : ℤ) : ℚ) else 0

theorem stored_column {n : ℕ} (to16 : Int16Cast) (M : Matrix (Fin n) (Fin n) ℚ) (chs : List ℕ) (v : ℕ → ℕ → ℚ) (N c : ℕ) :
    (((List.range N).map fun (i : ℕ) => List.ofFn (correctedValue to16 M chs v i)).map fun r => ((r.getD c 0 : ℤ) : ℚ)) =
      ccColumn to16 M chs v N c := by
  rw [List.map_map]
  apply List.map_congr_left
  intro i _
  simp only [Function.comp]
  by_cases hc : c < n
  · rw [dif_pos hc, List.getD_eq_getElem _ _ (by simpa using hc), List.getElem_ofFn]
  · rw [dif_neg hc, List.getD_eq_default _ _ (by simpa using hc)]
    rfl

theorem colourCorrect_ok {n : ℕ} (to16 : Int16Cast) (nan : ℤ) (M : Matrix (Fin n) (Fin n) ℚ) (hM : M.det ≠ 0)
    {w : HdfWorld} {chs : List ℕ} {f : ℕ → DataTable} {prop : String} {N : ℕ} {v : ℕ → ℕ → ℚ}
    (h : RecordedTables w chs f prop N v) (hne : chs ≠ []) (hlen : chs.length = n) (hlt : ∀ c ∈ chs, c < n) (hnd : chs.Nodup) :
    colourCorrect to16 nan M prop chs w = (.ok (), w.withColumns (prop ++ "_cc") chs (ccColumn to16 M chs v N)) := by
  rw [colourCorrect_store to16 nan M hM h hne hlen, storeColumns_ok _ _ _ chs w hnd hlt]
  · simp only [stored_column]
  · intro c hc
    exact ⟨f c, h.table c hc, by simp [h.rows c hc]⟩

theorem withColumn_value (f : DataTable) (hr : f.Rect) (name : String) (values : List ℚ) (h : values.length = f.rows.length) :
    (∀ i v, values[i]? = some v → (f.withColumn name values).value i name = some (some v)) ∧
      ∀ other ≠ name, ∀ i, (f.withColumn name values).value i other = f.value i other := by
  let w : HdfWorld := ⟨fun _ _ _ => none, fun _ => none, fun _ _ => some f, fun _ => .ok 0, [], none⟩
  obtain ⟨_, ⟨g, h1, _, h2, h3⟩, _⟩ := C97_column_stored w 0 name values f rfl hr h
  have he : (extendHdf w 0 name values).2 = w.setBinary w.cwd 0 (f.withColumn name values) := by
    unfold extendHdf
    simp only [w]
    rw [setColumn_eq f name values h]
  rw [he] at h1
  have : g = f.withColumn name values := by
    unfold readHdf at h1
    simp [HdfWorld.setBinary, w] at h1
    exact h1.symm
  subst this
  exact ⟨h2, h3⟩

theorem ccColumn_length {n : ℕ} (to16 : Int16Cast) (M : Matrix (Fin n) (Fin n) ℚ) (chs : List ℕ) (v : ℕ → ℕ → ℚ) (N c : ℕ) :
    (ccColumn to16 M chs v N c).length = N := by simp [ccColumn]

/-- **C143.** The colour correction of the channels `0 … n-1` with an invertible matrix adds to every row of every channel the
corrected value of this image and LED. All other columns, channels, directories and files stay. -/
theorem C143_corrected_partial {n : ℕ} (to16 : Int16Cast) (nan : ℤ) (M : Matrix (Fin n) (Fin n) ℚ) (hM : M.det ≠ 0) (hn : 0 < n)
    (w : HdfWorld) (f : ℕ → DataTable) (prop : String) (N : ℕ) (v : ℕ → ℕ → ℚ) (h : RecordedTables w (List.range n) f prop N v) :
    ∃ w', colourCorrect to16 nan M prop (List.range n) w = (.ok (), w') ∧
      (∀ c : Fin n, ∃ g, w'.binary w.cwd c = some g ∧ g.rows.length = N ∧ g.keys = (f c).keys ∧
        (∀ i < N, g.value i (prop ++ "_cc") = some (some ((to16.cast (∑ j : Fin n, M⁻¹ c j * v j i) : ℤ) : ℚ))) ∧
        ∀ other ≠ prop ++ "_cc", ∀ i, g.value i other = (f c).value i other) ∧
      (∀ d ch, ¬ (d = w.cwd ∧ ch < n) → w'.binary d ch = w.binary d ch) ∧
      w'.csv = w.csv ∧ w'.coord = w.coord ∧ w'.count = w.count ∧ w'.cwd = w.cwd ∧ w'.cache = w.cache := by
  have hr : List.range n ≠ [] := by simp; omega
  refine ⟨_, colourCorrect_ok to16 nan M hM h hr (by simp) (by simp) List.nodup_range, ?_, ?_, rfl, rfl, rfl, rfl, rfl⟩
  · intro c
    have hc : (c : ℕ) ∈ List.range n := by simp
    have hl : (ccColumn to16 M (List.range n) v N c).length = (f c).rows.length := by rw [ccColumn_length, h.rows c hc]
    have hv := withColumn_value (f c) (h.rect c hc) (prop ++ "_cc") _ hl
    refine ⟨(f c).withColumn (prop ++ "_cc") (ccColumn to16 M (List.range n) v N c), ?_, ?_, ?_, ?_, hv.2⟩
    · simp only [HdfWorld.withColumns]
      rw [if_pos ⟨trivial, hc⟩, h.table c hc]
      rfl
    · rw [withColumn_length _ _ _ hl, h.rows c hc]
    · exact keys_withColumn _ (h.rect c hc) _ _ hl (img_ne_cc prop) (led_ne_cc prop)
    · intro i hi
      apply hv.1
      unfold ccColumn
      rw [List.getElem?_map, List.getElem?_range hi, Option.map_some, dif_pos c.2]
      congr 3
      unfold correctedValue
      congr 1
      apply Finset.sum_congr rfl
      intro j _
      rw [List.getD_eq_getElem _ _ (by simp), List.getElem_range]
  · intro d ch hx
    simp only [HdfWorld.withColumns]
    rw [if_neg (by simpa using hx)]

/-- **C143.** Binary files that do not exist yet are made by reading. They and all files that exist are kept, and the correction is
the same as if all channels had been read before. -/
theorem C143_first_read {n : ℕ} (to16 : Int16Cast) (nan : ℤ) (M : Matrix (Fin n) (Fin n) ℚ) (prop : String) (chs : List ℕ)
    (w w' : HdfWorld) (cols : List (List ((Cell × Cell) × Cell))) (hr : readColumns prop chs w = (.ok cols, w')) (hM : M.det ≠ 0) :
    (∀ c ∈ chs, (w'.binary w.cwd c).isSome) ∧ (∀ d k g, w.binary d k = some g → w'.binary d k = some g) ∧
      colourCorrect to16 nan M prop chs w = colourCorrect to16 nan M prop chs w' := by
  obtain ⟨h1, h2⟩ := readColumns_keeps prop chs w w' cols hr
  refine ⟨?_, h1.2, ?_⟩
  · clear h2 h1
    induction chs generalizing w cols with
    | nil => simp
    | cons c chs ih =>
      unfold readColumns at hr
      rcases hq : readHdf w c w.cwd with ⟨r, w1⟩
      rw [hq] at hr
      cases r with
      | error e => simp at hr
      | ok f =>
        simp only at hr
        cases hk : f.keyed prop with
        | error e => rw [hk] at hr; simp at hr
        | ok k =>
          rw [hk] at hr
          simp only at hr
          rcases hc : readColumns prop chs w1 with ⟨r2, w2⟩
          rw [hc] at hr
          cases r2 with
          | error e => simp at hr
          | ok cs =>
            simp only [Prod.mk.injEq, Except.ok.injEq] at hr
            obtain ⟨rfl, rfl⟩ := hr
            obtain ⟨h1, h2⟩ := readHdf_keeps w w1 c f hq
            have h3 := (readColumns_keeps prop chs w1 w2 cs hc).1
            intro d hd
            rcases List.mem_cons.1 hd with rfl | hd
            · rw [h3.2 _ _ _ h2]; rfl
            · rw [← h1.1]
              exact ih w1 cs hc d hd
  · have ha := h2 w' ⟨rfl, fun _ _ _ h => h⟩
    unfold colourCorrect
    rw [hr, ha, if_neg hM, if_neg hM]

/-- Mixed channels: the inverse matrix gives back the values before mixing. -/
theorem unmix {n : ℕ} (M : Matrix (Fin n) (Fin n) ℚ) (hM : M.det ≠ 0) (orig raw : Fin n → ℚ)
    (hmix : ∀ i, raw i = ∑ j, M i j * orig j) (c : Fin n) : ∑ j, M⁻¹ c j * raw j = orig c := by
  calc ∑ j, M⁻¹ c j * raw j = (M⁻¹.mulVec (M.mulVec orig)) c := by
        simp only [hmix]; rfl
    _ = orig c := by
        rw [Matrix.mulVec_mulVec, Matrix.nonsing_inv_mul M (isUnit_iff_ne_zero.2 hM), Matrix.one_mulVec]

/-- A table without duplicate of the values: image, LED, array and value of every row. -/
theorem frameRows_eq (f : DataTable) (prop : String) : frameRows f prop =
    ((f.rows.map (f.cell "img_id")).zip ((f.rows.map (f.cell "led_id")).zip ((f.rows.map (f.cell "led_array_id")).zip
      (f.rows.map (f.cell prop))))).map fun x => (⌊x.1.getD 0⌋.toNat, ⌊x.2.1.getD 0⌋.toNat, ⌊x.2.2.1.getD 0⌋.toNat,
        ((x.2.2.2.getD 0 : ℚ) : ℝ)) := by
  unfold frameRows
  rw [List.zip_map', List.zip_map', List.zip_map', List.map_map]
  rfl

/-- **C143.** If the recorded channels are a mixture, by the matrix, of values that are integers of 16 bits, then the analysis of the
corrected property gets exactly what it would get from tables with the values before mixing: `t` is the table of channel `c` with
these values. So every result is the same. -/
theorem C143_analysis_partial {n : ℕ} (to16 : Int16Cast) (nan : ℤ) (M : Matrix (Fin n) (Fin n) ℚ) (hM : M.det ≠ 0)
    (w : HdfWorld) (f : ℕ → DataTable) (prop : String) (N : ℕ) (v : ℕ → ℕ → ℚ) (h : RecordedTables w (List.range n) f prop N v)
    (hp : prop ≠ "led_array_id") (orig : ℕ → ℕ → ℤ) (h16 : ∀ c < n, ∀ i < N, Is16 (orig c i))
    (hmix : ∀ i < N, ∀ c : Fin n, v c i = ∑ j : Fin n, M c j * (orig j i : ℚ)) (c : Fin n) (t : DataTable)
    (ht : setColumn (f c) prop ((List.range N).map fun (i : ℕ) => (orig c i : ℚ)) = .ok t) :
    ∃ g w', colourCorrect to16 nan M prop (List.range n) w = (.ok (), w') ∧ readHdf w' c w'.cwd = (.ok g, w') ∧
      (∀ arr, frameData g (prop ++ "_cc") arr = frameData t prop arr) ∧
      ∀ (a : ArrayAnalysis) r, a.ResultOf (a.inputOf (frameData g (prop ++ "_cc") a.arr)) r ↔
        a.ResultOf (a.inputOf (frameData t prop a.arr)) r := by
  have hn : 0 < n := Nat.pos_of_ne_zero (by rintro rfl; exact c.elim0)
  have hr : List.range n ≠ [] := by simp; omega
  have hc : (c : ℕ) ∈ List.range n := by simp
  have hl : (ccColumn to16 M (List.range n) v N c).length = (f c).rows.length := by rw [ccColumn_length, h.rows c hc]
  have hl2 : ((List.range N).map fun (i : ℕ) => (orig c i : ℚ)).length = (f c).rows.length := by simp [h.rows c hc]
  have hcol : ccColumn to16 M (List.range n) v N c = (List.range N).map fun (i : ℕ) => (orig c i : ℚ) := by
    apply List.map_congr_left
    intro i hi
    rw [List.mem_range] at hi
    rw [dif_pos c.2]
    have hs : ∑ j : Fin n, M⁻¹ c j * v ((List.range n).getD j 0) i = (orig c i : ℚ) := by
      rw [← unmix M hM (fun j => (orig j i : ℚ)) (fun j => v j i) (fun k => hmix i hi k) c]
      apply Finset.sum_congr rfl
      intro j _
      rw [List.getD_eq_getElem _ _ (by simp), List.getElem_range]
    have h1 := h16 c c.2 i hi
    unfold correctedValue
    simp only [Fin.eta]
    rw [hs, to16.fits _ (by rw [truncZero_int]; exact h1.1) (by rw [truncZero_int]; exact h1.2), truncZero_int]
  rw [setColumn_eq _ _ _ hl2] at ht
  have ht := (Except.ok.inj ht).symm
  subst ht
  have hrect := h.rect c hc
  have hfd : ∀ arr, frameData ((f c).withColumn (prop ++ "_cc") (ccColumn to16 M (List.range n) v N c)) (prop ++ "_cc") arr =
      frameData ((f c).withColumn prop ((List.range N).map fun (i : ℕ) => (orig c i : ℚ))) prop arr := by
    intro arr
    unfold frameData
    rw [if_pos (withColumn_mem _ _ _), if_pos (withColumn_mem _ _ _), frameRows_eq, frameRows_eq]
    rw [cell_withColumn_other _ hrect _ "img_id" _ hl (img_ne_cc prop),
      cell_withColumn_other _ hrect _ "led_id" _ hl (led_ne_cc prop),
      cell_withColumn_other _ hrect _ "led_array_id" _ hl (arr_ne_cc prop), cell_withColumn_self _ hrect _ _ hl,
      cell_withColumn_other _ hrect _ "img_id" _ hl2 h.notKey.1.symm,
      cell_withColumn_other _ hrect _ "led_id" _ hl2 h.notKey.2.symm,
      cell_withColumn_other _ hrect _ "led_array_id" _ hl2 hp.symm, cell_withColumn_self _ hrect _ _ hl2, hcol]
  refine ⟨_, _, colourCorrect_ok to16 nan M hM h hr (by simp) (by simp) List.nodup_range, ?_, hfd, ?_⟩
  · unfold readHdf
    have : (w.withColumns (prop ++ "_cc") (List.range n) (ccColumn to16 M (List.range n) v N)).binary w.cwd c =
        some ((f c).withColumn (prop ++ "_cc") (ccColumn to16 M (List.range n) v N c)) := by
      simp only [HdfWorld.withColumns]
      rw [if_pos ⟨trivial, hc⟩, h.table c hc]
      rfl
    have hw : (w.withColumns (prop ++ "_cc") (List.range n) (ccColumn to16 M (List.range n) v N)).cwd = w.cwd := rfl
    rw [hw, this]
  · intro a r
    rw [hfd]

/-- Refuted for other sums: where the value before mixing does not fit into 16 bits, another value is stored. -/
theorem C143_overflow_false {n : ℕ} (to16 : Int16Cast) (nan : ℤ) (M : Matrix (Fin n) (Fin n) ℚ) (hM : M.det ≠ 0) (hn : 0 < n)
    (w : HdfWorld) (f : ℕ → DataTable) (prop : String) (N : ℕ) (v : ℕ → ℕ → ℚ) (h : RecordedTables w (List.range n) f prop N v)
    (orig : ℕ → ℕ → ℤ) (c : Fin n) (i : ℕ) (hi : i < N) (h16 : ¬ Is16 (orig c i)) :
    ∃ w' g, colourCorrect to16 nan M prop (List.range n) w = (.ok (), w') ∧ w'.binary w.cwd c = some g ∧
      ∃ z : ℤ, g.value i (prop ++ "_cc") = some (some (z : ℚ)) ∧ z ≠ orig c i := by
  obtain ⟨w', h1, h2, _⟩ := C143_corrected_partial to16 nan M hM hn w f prop N v h
  obtain ⟨g, hg, _, _, hv, _⟩ := h2 c
  refine ⟨w', g, h1, hg, _, hv i hi, ?_⟩
  intro he
  apply h16
  rw [← he]
  exact to16.range _

/-- **C143.** Repeating the correction changes nothing. -/
theorem C143_twice {n : ℕ} (to16 : Int16Cast) (nan : ℤ) (M : Matrix (Fin n) (Fin n) ℚ) (hM : M.det ≠ 0) (hn : 0 < n)
    (w : HdfWorld) (f : ℕ → DataTable) (prop : String) (N : ℕ) (v : ℕ → ℕ → ℚ) (h : RecordedTables w (List.range n) f prop N v) :
    colourCorrect to16 nan M prop (List.range n) (colourCorrect to16 nan M prop (List.range n) w).2 =
      colourCorrect to16 nan M prop (List.range n) w := by
  have hr : List.range n ≠ [] := by simp; omega
  have h1 := colourCorrect_ok to16 nan M hM h hr (by simp) (by simp) List.nodup_range
  have hl : ∀ c ∈ List.range n, (ccColumn to16 M (List.range n) v N c).length = (f c).rows.length := by
    intro c hc; rw [ccColumn_length, h.rows c hc]
  have h' : RecordedTables (w.withColumns (prop ++ "_cc") (List.range n) (ccColumn to16 M (List.range n) v N)) (List.range n)
      (fun c => (f c).withColumn (prop ++ "_cc") (ccColumn to16 M (List.range n) v N c)) prop N v := by
    refine ⟨?_, ?_, ?_, ?_, ?_, ?_, h.notKey⟩
    · intro c hc
      simp only [HdfWorld.withColumns]
      rw [if_pos ⟨trivial, hc⟩, h.table c hc]
      rfl
    · intro c hc
      exact withColumn_rect _ _ _ (h.rect c hc)
    · intro c hc
      rw [withColumn_length _ _ _ (hl c hc), h.rows c hc]
    · intro c hc d hd
      rw [keys_withColumn _ (h.rect c hc) _ _ (hl c hc) (img_ne_cc prop) (led_ne_cc prop),
        keys_withColumn _ (h.rect d hd) _ _ (hl d hd) (img_ne_cc prop) (led_ne_cc prop), h.same c hc d hd]
    · intro c hc i hi
      rw [(withColumn_value _ (h.rect c hc) _ _ (hl c hc)).2 prop (cc_ne prop), h.value c hc i hi]
    · intro c hc
      exact (withColumn_mem_other _ _ _ _ (cc_ne prop)).2 (h.column c hc)
  rw [h1]
  rw [colourCorrect_ok to16 nan M hM h' hr (by simp) (by simp) List.nodup_range]
  congr 1
  unfold HdfWorld.withColumns
  simp only [HdfWorld.mk.injEq, true_and, and_true]
  funext d k
  by_cases hd : d = w.cwd ∧ k ∈ List.range n
  · obtain ⟨rfl, hk⟩ := hd
    rw [if_pos ⟨rfl, hk⟩, if_pos ⟨rfl, hk⟩, h.table k hk]
    simp only [Option.map_some]
    rw [withColumn_twice _ (h.rect k hk) _ _ (hl k hk)]
  · rw [if_neg hd, if_neg hd]

theorem storeColumns_total (n : ℕ) (name : String) (cc : List (List ℤ)) :
    ∀ (chs : List ℕ) (w : HdfWorld), (∀ c ∈ chs, c < n) →
      (∀ c ∈ chs, ∃ f, w.binary w.cwd c = some f ∧ cc.length = f.rows.length) → (storeColumns n name cc chs w).1 = .ok ()
  | [], _, _, _ => rfl
  | c :: chs, w, hlt, hf => by
    obtain ⟨f, h1, h2⟩ := hf c (by simp)
    have hc := hlt c (by simp)
    unfold storeColumns
    rw [if_neg (by omega)]
    have he : extendHdf w c name (cc.map fun r => ((r.getD c 0 : ℤ) : ℚ)) =
        (.ok (), w.setBinary w.cwd c (f.withColumn name (cc.map fun r => ((r.getD c 0 : ℤ) : ℚ)))) := by
      unfold extendHdf
      rw [h1]
      simp only
      rw [setColumn_eq _ _ _ (by simpa using h2)]
    rw [he]
    simp only
    apply storeColumns_total n name cc chs _ (fun d hd => hlt d (by simp [hd]))
    intro d hd
    obtain ⟨g, h3, h4⟩ := hf d (by simp [hd])
    by_cases hdc : d = c
    · subst hdc
      refine ⟨f.withColumn name (cc.map fun r => ((r.getD d 0 : ℤ) : ℚ)), by simp [HdfWorld.setBinary], ?_⟩
      rw [withColumn_length _ _ _ (by simpa using h2), h2]
    · exact ⟨g, by simp [HdfWorld.setBinary, hdc, h3], h4⟩

/-- **C143.** A correction of recorded channels with numbers below the size of the matrix that fails leaves everything as it was. -/
theorem C143_failed_unchanged {n : ℕ} (to16 : Int16Cast) (nan : ℤ) (M : Matrix (Fin n) (Fin n) ℚ) (w : HdfWorld) (chs : List ℕ)
    (f : ℕ → DataTable) (prop : String) (N : ℕ) (v : ℕ → ℕ → ℚ) (h : RecordedTables w chs f prop N v) (hlt : ∀ c ∈ chs, c < n)
    (e : PyErr) (he : (colourCorrect to16 nan M prop chs w).1 = .error e) : (colourCorrect to16 nan M prop chs w).2 = w := by
  by_cases hM : M.det = 0
  · unfold colourCorrect; rw [if_pos hM]
  by_cases hne : chs = []
  · subst hne
    unfold colourCorrect
    rw [if_neg hM]
    rfl
  by_cases hlen : chs.length = n
  · rw [colourCorrect_store to16 nan M hM h hne hlen] at he
    rw [storeColumns_total n _ _ chs w hlt] at he
    · cases he
    · intro c hc
      exact ⟨f c, h.table c hc, by simp [h.rows c hc]⟩
  · obtain ⟨d, hd⟩ := List.exists_mem_of_ne_nil _ hne
    unfold colourCorrect
    rw [if_neg hM, readColumns_present prop w f _ chs h.table (h.keyed d hd)]
    simp only
    rw [beside_same (f d).keys (fun c i => some (v c i)) chs hne]
    simp only
    rw [if_pos hlen]

/-- Refuted for other channels: a correction of the channels 1 and 2 with a matrix of two rows stops with an error and leaves the
values of channel 2 as corrected values of channel 1, even for the identity matrix. -/
theorem C143_partly_false (to16 : Int16Cast) (nan : ℤ) (w : HdfWorld) (f : ℕ → DataTable) (prop : String) (N : ℕ)
    (v : ℕ → ℕ → ℤ) (h : RecordedTables w [1, 2] f prop N fun c i => (v c i : ℚ)) (h16 : ∀ i < N, Is16 (v 2 i)) :
    ∃ w' g, colourCorrect to16 nan (1 : Matrix (Fin 2) (Fin 2) ℚ) prop [1, 2] w = (.error .indexError, w') ∧
      w'.binary w.cwd 1 = some g ∧ ∀ i < N, g.value i (prop ++ "_cc") = some (some (v 2 i : ℚ)) := by
  rw [colourCorrect_store to16 nan (1 : Matrix (Fin 2) (Fin 2) ℚ) (by simp) h (by simp) (show [1, 2].length = 2 from rfl)]
  unfold storeColumns
  rw [if_neg (by omega)]
  have hl : (ccColumn to16 (1 : Matrix (Fin 2) (Fin 2) ℚ) [1, 2] (fun c i => (v c i : ℚ)) N 1).length = (f 1).rows.length := by
    rw [ccColumn_length, h.rows 1 (by simp)]
  have he : extendHdf w 1 (prop ++ "_cc") (ccColumn to16 (1 : Matrix (Fin 2) (Fin 2) ℚ) [1, 2] (fun c i => (v c i : ℚ)) N 1) =
      (.ok (), w.setBinary w.cwd 1 ((f 1).withColumn (prop ++ "_cc")
        (ccColumn to16 (1 : Matrix (Fin 2) (Fin 2) ℚ) [1, 2] (fun c i => (v c i : ℚ)) N 1))) := by
    unfold extendHdf
    rw [h.table 1 (by simp)]
    simp only
    rw [setColumn_eq _ _ _ hl]
  rw [stored_column, he]
  simp only
  unfold storeColumns
  rw [if_pos (by omega)]
  refine ⟨_, (f 1).withColumn (prop ++ "_cc") (ccColumn to16 (1 : Matrix (Fin 2) (Fin 2) ℚ) [1, 2] (fun c i => (v c i : ℚ)) N 1),
    rfl, by simp [HdfWorld.setBinary], ?_⟩
  intro i hi
  apply (withColumn_value (f 1) (h.rect 1 (by simp)) _ _ hl).1
  unfold ccColumn
  rw [List.getElem?_map, List.getElem?_range hi, Option.map_some, dif_pos (by omega)]
  have hs := h16 i hi
  unfold correctedValue
  rw [inv_one, Fin.sum_univ_two]
  simp only [Matrix.one_apply]
  norm_num
  rw [to16.fits _ (by rw [truncZero_int]; exact hs.1) (by rw [truncZero_int]; exact hs.2), truncZero_int]

/-- Refuted: when the correction and the analysis are asked for together, the analysis reads the same property that was corrected,
so that it gets the values without correction. -/
theorem C143_together_false {n : ℕ} (to16 : Int16Cast) (nan : ℤ) (M : Matrix (Fin n) (Fin n) ℚ) (hM : M.det ≠ 0)
    (w : HdfWorld) (f : ℕ → DataTable) (prop : String) (N : ℕ) (v : ℕ → ℕ → ℚ) (h : RecordedTables w (List.range n) f prop N v)
    (c : Fin n) : ∃ g w', ccCommand to16 nan (some M) prop (List.range n) w = (.ok (), w') ∧ readHdf w' c w'.cwd = (.ok g, w') ∧
      ∀ arr, frameData g prop arr = frameData (f c) prop arr := by
  have hn : 0 < n := Nat.pos_of_ne_zero (by rintro rfl; exact c.elim0)
  have hr : List.range n ≠ [] := by simp; omega
  have hc : (c : ℕ) ∈ List.range n := by simp
  have hl : (ccColumn to16 M (List.range n) v N c).length = (f c).rows.length := by rw [ccColumn_length, h.rows c hc]
  have hrect := h.rect c hc
  refine ⟨(f c).withColumn (prop ++ "_cc") (ccColumn to16 M (List.range n) v N c), _,
    colourCorrect_ok to16 nan M hM h hr (by simp) (by simp) List.nodup_range, ?_, ?_⟩
  · unfold readHdf
    have : (w.withColumns (prop ++ "_cc") (List.range n) (ccColumn to16 M (List.range n) v N)).binary w.cwd c =
        some ((f c).withColumn (prop ++ "_cc") (ccColumn to16 M (List.range n) v N c)) := by
      simp only [HdfWorld.withColumns]
      rw [if_pos ⟨trivial, hc⟩, h.table c hc]
      rfl
    have hw : (w.withColumns (prop ++ "_cc") (List.range n) (ccColumn to16 M (List.range n) v N)).cwd = w.cwd := rfl
    rw [hw, this]
  · intro arr
    unfold frameData
    rw [frameRows_eq, frameRows_eq]
    rw [cell_withColumn_other _ hrect _ "img_id" _ hl (img_ne_cc prop),
      cell_withColumn_other _ hrect _ "led_id" _ hl (led_ne_cc prop),
      cell_withColumn_other _ hrect _ "led_array_id" _ hl (arr_ne_cc prop),
      cell_withColumn_other _ hrect _ prop _ hl (cc_ne prop)]
    simp only [withColumn_mem_other _ _ _ _ (cc_ne prop)]

/-- **C143.** Without the file of the matrix the program ends and nothing is changed. -/
theorem C143_no_matrix {n : ℕ} (to16 : Int16Cast) (nan : ℤ) (prop : String) (chs : List ℕ) (w : HdfWorld) :
    ccCommand (n := n) to16 nan none prop chs w = (.error .systemExit, w) := rfl

/-- **C143.** A value that is missing in one channel leaves no corrected value in any channel. -/
theorem C143_missing_value {n : ℕ} (to16 : Int16Cast) (nan : ℤ) (M : Matrix (Fin n) (Fin n) ℚ) (row : List Cell)
    (h : none ∈ row) : correctRow to16 nan M row = List.replicate n nan := by
  have hm : row.mapM id = none := mapM_option_none id row ⟨none, h, rfl⟩
  unfold correctRow
  simp only [hm]
  exact List.ofFn_const n nan

theorem storeColumns_lengths (n : ℕ) (name : String) (cc : List (List ℤ)) :
    ∀ (chs : List ℕ) (w : HdfWorld), (storeColumns n name cc chs w).1 = .ok () →
      ∀ c ∈ chs, c < n ∧ ∀ f, w.binary w.cwd c = some f → cc.length = f.rows.length
  | [], _, _, c, hc => by cases hc
  | k :: chs, w, h, c, hc => by
    unfold storeColumns at h
    by_cases hk : n ≤ k
    · rw [if_pos hk] at h; cases h
    rw [if_neg hk] at h
    unfold extendHdf at h
    cases hb : w.binary w.cwd k with
    | none => rw [hb] at h; cases h
    | some f =>
      rw [hb] at h
      simp only at h
      by_cases hl : (cc.map fun r => ((r.getD k 0 : ℤ) : ℚ)).length = f.rows.length
      · rw [setColumn_eq _ _ _ hl] at h
        simp only at h
        have ih := storeColumns_lengths n name cc chs _ h
        rw [List.length_map] at hl
        rcases List.mem_cons.1 hc with rfl | hc
        · refine ⟨by omega, fun g hg => ?_⟩
          rw [hb] at hg
          cases hg
          exact hl
        · refine ⟨(ih c hc).1, fun g hg => ?_⟩
          by_cases hck : c = k
          · subst hck
            rw [hb] at hg
            cases hg
            exact hl
          · exact (ih c hc).2 g (by simp [HdfWorld.setBinary, hck, hg])
      · unfold setColumn at h
        rw [if_pos hl] at h
        cases h

theorem mem_unionKeys {α : Type} [DecidableEq α] (k : α) : ∀ ls : List (List α), k ∈ unionKeys ls ↔ ∃ l ∈ ls, k ∈ l
  | [] => by simp [unionKeys]
  | l :: ls => by
    unfold unionKeys
    rw [List.mem_append, List.mem_filter, mem_unionKeys k ls]
    simp only [List.mem_cons, exists_eq_or_imp, decide_eq_true_eq]
    by_cases h : k ∈ l <;> simp [h]

theorem unionKeys_nodup {α : Type} [DecidableEq α] : ∀ ls : List (List α), (∀ l ∈ ls, l.Nodup) → (unionKeys ls).Nodup
  | [], _ => by simp [unionKeys]
  | l :: ls, h => by
    unfold unionKeys
    rw [List.nodup_append]
    refine ⟨h l (by simp), (unionKeys_nodup ls fun x hx => h x (by simp [hx])).filter _, ?_⟩
    intro a ha b hb
    rw [List.mem_filter] at hb
    have : b ∉ l := by simpa using hb.2
    rintro rfl
    exact this ha

/-- Columns beside each other with as many rows as one of them: that one has all keys. -/
theorem beside_keys {α : Type} [DecidableEq α] (cols : List (List (α × Cell))) (rows : List (List Cell))
    (h : besideEachOther cols = .ok rows) (hl : ∀ d ∈ cols, d.length = rows.length) :
    ∀ d ∈ cols, ∀ e ∈ cols, (d.map (·.1)).Perm (e.map (·.1)) := by
  match cols with
  | [] => intro d hd; cases hd
  | c :: cs =>
    unfold besideEachOther at h
    simp only at h
    split at h
    · rename_i hs
      have : ∀ d ∈ c :: cs, d.map (·.1) = c.map (·.1) := by
        intro d hd
        rcases List.mem_cons.1 hd with rfl | hd
        · rfl
        · exact hs d hd
      intro d hd e he
      rw [this d hd, this e he]
    · split at h
      · rename_i hn
        have h := Except.ok.inj h
        have hu : ∀ d ∈ c :: cs, (d.map (·.1)).Perm (unionKeys ((c :: cs).map fun d => d.map (·.1))) := by
          intro d hd
          apply List.Subperm.perm_of_length_le
          · apply List.subperm_of_subset (hn d hd)
            intro k hk
            rw [mem_unionKeys]
            exact ⟨_, List.mem_map_of_mem hd, hk⟩
          · have h1 := hl d hd
            rw [← h, List.length_map] at h1
            rw [List.length_map, h1]
        intro d hd e he
        exact (hu d hd).trans (hu e he).symm
      · cases h

/-- **C143.** A correction that succeeds was applied to channels about the same images and LEDs: tables of different images or LEDs
are rejected. -/
theorem C143_same_rows {n : ℕ} (to16 : Int16Cast) (nan : ℤ) (M : Matrix (Fin n) (Fin n) ℚ) (w : HdfWorld) (chs : List ℕ)
    (f : ℕ → DataTable) (prop : String) (hf : ∀ c ∈ chs, w.binary w.cwd c = some (f c))
    (h : (colourCorrect to16 nan M prop chs w).1 = .ok ()) :
    chs.length = n ∧ (∀ c ∈ chs, c < n) ∧ ∀ c ∈ chs, ∀ d ∈ chs, (f c).keys.Perm (f d).keys := by
  unfold colourCorrect at h
  by_cases hM : M.det = 0
  · rw [if_pos hM] at h; cases h
  rw [if_neg hM] at h
  by_cases hk : ∀ c ∈ chs, prop ∈ (f c).cols ∧ prop ≠ "img_id" ∧ prop ≠ "led_id"
  · rw [readColumns_present prop w f (fun c => (f c).keys.zip ((f c).rows.map ((f c).cell prop))) chs hf
      (fun c hc => by unfold DataTable.keyed; rw [if_pos (hk c hc)])] at h
    simp only at h
    have hkl : ∀ c, ((f c).keys.zip ((f c).rows.map ((f c).cell prop))).length = (f c).rows.length := by
      intro c; simp [DataTable.keys]
    cases hb : besideEachOther (chs.map fun c => (f c).keys.zip ((f c).rows.map ((f c).cell prop))) with
    | error e => rw [hb] at h; cases h
    | ok rows =>
      rw [hb] at h
      simp only at h
      by_cases hlen : chs.length = n
      · rw [if_neg (by simpa using hlen)] at h
        have hs := storeColumns_lengths _ _ _ chs w h
        refine ⟨hlen, fun c hc => (hs c hc).1, ?_⟩
        have hp := beside_keys _ rows hb (by
          intro d hd
          obtain ⟨c, hc, rfl⟩ := List.mem_map.1 hd
          have := (hs c hc).2 (f c) (hf c hc)
          rw [hkl, ← this, List.length_map])
        intro c hc d hd
        have := hp _ (List.mem_map_of_mem (f := fun c => (f c).keys.zip ((f c).rows.map ((f c).cell prop))) hc) _
          (List.mem_map_of_mem (f := fun c => (f c).keys.zip ((f c).rows.map ((f c).cell prop))) hd)
        rw [List.map_fst_zip (by simp [DataTable.keys]), List.map_fst_zip (by simp [DataTable.keys])] at this
        exact this
      · rw [if_pos (by simpa using hlen)] at h; cases h
  · exfalso
    have : ∀ l : List ℕ, (∀ c ∈ l, w.binary w.cwd c = some (f c)) →
        ¬ (∀ c ∈ l, prop ∈ (f c).cols ∧ prop ≠ "img_id" ∧ prop ≠ "led_id") → ∃ e, (readColumns prop l w).1 = .error e := by
      intro l
      induction l with
      | nil => intro _ h; simp at h
      | cons c l ih =>
        intro hl hk
        have hr : readHdf w c w.cwd = (.ok (f c), w) := by
          unfold readHdf; rw [hl c (by simp)]
        unfold readColumns
        rw [hr]
        simp only
        by_cases hc : prop ∈ (f c).cols ∧ prop ≠ "img_id" ∧ prop ≠ "led_id"
        · obtain ⟨e, he⟩ := ih (fun d hd => hl d (by simp [hd])) (fun hx => hk (by
            intro d hd
            rcases List.mem_cons.1 hd with rfl | hd
            · exact hc
            · exact hx d hd))
          unfold DataTable.keyed
          rw [if_pos hc]
          simp only
          rcases hx : readColumns prop l w with ⟨a, b⟩
          rw [hx] at he
          cases a with
          | ok _ => cases he
          | error e' => exact ⟨e', rfl⟩
        · unfold DataTable.keyed
          rw [if_neg hc]
          exact ⟨_, rfl⟩
    obtain ⟨e, he⟩ := this chs hf hk
    rcases hx : readColumns prop chs w with ⟨a, b⟩
    rw [hx] at he h
    cases a with
    | ok _ => cases he
    | error e' => cases h

/-! ### Examples -/

/-- The tables of two channels: two images with one LED. Channel 0 sees the sum of both colours. -/
def mixedTable (c : ℕ) : DataTable :=
  ⟨["img_id", "led_id", "led_array_id", "sum_col_val"],
   [[some 1, some 4, some 0, some (if c = 0 then 12 else 7)], [some 2, some 4, some 0, some (if c = 0 then 9 else 6)]]⟩

/-- A directory with these tables. -/
def mixedWorld : HdfWorld := ⟨fun _ _ _ => none, fun _ => none, fun _ ch => if ch < 2 then some (mixedTable ch) else none, fun _ => .ok 2,
  ['a'], none⟩

/-- The recorded values. -/
def mixedValue (c i : ℕ) : ℚ := if c = 0 then (if i = 0 then 12 else 9) else (if i = 0 then 7 else 6)

theorem mixedWorld_recorded : RecordedTables mixedWorld (List.range 2) mixedTable "sum_col_val" 2 mixedValue := by
  refine ⟨by decide, ?_, by decide, by decide +kernel, by decide +kernel, by decide, by decide⟩
  intro c _
  unfold DataTable.Rect mixedTable
  simp

/-- The colours were 5 and 7 in the first image and 3 and 6 in the second one: the analysis gets the 5 and the 3. -/
example : ∃ g w', colourCorrect satCast 0 !![(1 : ℚ), 1; 0, 1] "sum_col_val" (List.range 2) mixedWorld = (.ok (), w') ∧
    readHdf w' 0 w'.cwd = (.ok g, w') ∧
    frameData g "sum_col_val_cc" 0 = frameData ⟨["img_id", "led_id", "led_array_id", "sum_col_val"],
      [[some 1, some 4, some 0, some 5], [some 2, some 4, some 0, some 3]]⟩ "sum_col_val" 0 := by
  obtain ⟨g, w', h1, h2, h3, _⟩ := C143_analysis_partial satCast 0 !![(1 : ℚ), 1; 0, 1] (by simp [Matrix.det_fin_two]) mixedWorld
    mixedTable "sum_col_val" 2 mixedValue mixedWorld_recorded (by decide)
    (fun c i => if c = 0 then (if i = 0 then 5 else 3) else (if i = 0 then 7 else 6))
    (by intro c _ i _; split_ifs <;> simp [Is16])
    (by
      intro i hi c
      have : i = 0 ∨ i = 1 := by omega
      rcases this with rfl | rfl <;> fin_cases c <;> simp [Fin.sum_univ_two, mixedValue] <;> norm_num)
    0 ⟨["img_id", "led_id", "led_array_id", "sum_col_val"],
      [[some 1, some 4, some 0, some 5], [some 2, some 4, some 0, some 3]]⟩ (by decide +kernel)
  exact ⟨g, w', h1, h2, h3 0⟩

end Ledsa
