import Mathlib.Data.List.Sort
import Mathlib.Data.List.Dedup
import Verif.Model.SimData
/-
Model of the table of all extinction coefficients in `postprocessing/simulation.py` and of the requests to it. A table is given by its index and its
labelled columns; `none` is NaN. Values are of any type; smoothing is a function on columns.
-/
namespace Ledsa

/-- A coefficient file as read, /repo/ledsa/postprocessing/simulation.py 171-184: channel and LED array from its name, number of layers, times with
coefficients. -/
structure CoeffTable (K : Type) where
  channel : ℤ
  array : ℤ
  layers : ℕ
  rows : List (ℤ × List K)
deriving DecidableEq

/-- The index of the file. -/
def CoeffTable.times {K : Type} (f : CoeffTable K) : List ℤ := f.rows.map (·.1)

/-- Reading one file with its path, /repo/ledsa/postprocessing/simulation.py 171-184; `content` are the number of layers and the rows, see
`simReadCoeffs`. -/
def readCoeffTable {K : Type} (path : Str) (content : ℕ × List (ℤ × List K)) : Except PyErr (CoeffTable K) :=
  match channelOfFile path with
  | .error e => .error e
  | .ok c => match arrayOfFile path with
    | .error e => .error e
    | .ok a => .ok ⟨c, a, content.1, content.2⟩

/-- A table of coefficients: times, and columns labelled with channel, LED array and layer. -/
structure ExtTable (K : Type) where
  index : List ℤ
  cols : List ((ℤ × ℤ × ℕ) × List (Option K))
deriving DecidableEq

/-- Times in the order of their first appearance. -/
def firstSeen : List ℤ → List ℤ
  | [] => []
  | t :: l => t :: (firstSeen l).filter (· ≠ t)

/-- Values of a layer in the order of the file. -/
def CoeffTable.column {K : Type} (f : CoeffTable K) (l : ℕ) : List (Option K) := f.rows.map fun r => r.2[l]?

/-- Values of a layer after reindexing: NaN at times that are not in the file. -/
def CoeffTable.reindexed {K : Type} (f : CoeffTable K) (index : List ℤ) (l : ℕ) : List (Option K) :=
  index.map fun t => (f.rows.find? fun r => r.1 = t).bind fun r => r.2[l]?

/-- `pd.concat(extco_list, axis=1)`, /repo/ledsa/postprocessing/simulation.py 186: no file raises `ValueError`; tables with the same index are put
side by side; otherwise the index is the union of the times, and a repeated time in one of the files raises `InvalidIndexError` (here
`valueError`). -/
def concatTables {K : Type} (fs : List (CoeffTable K)) : Except PyErr (ExtTable K) :=
  match fs with
  | [] => .error .valueError
  | f :: _ =>
    if ∀ g ∈ fs, g.times = f.times then
      .ok ⟨f.times, fs.flatMap fun g => (List.range g.layers).map fun (l : ℕ) => ((g.channel, g.array, l), g.column l)⟩
    else if ∀ g ∈ fs, g.times.Nodup then
      let index := firstSeen (fs.flatMap CoeffTable.times)
      .ok ⟨index, fs.flatMap fun g => (List.range g.layers).map fun (l : ℕ) => ((g.channel, g.array, l), g.reindexed index l)⟩
    else .error .valueError

/-- Order of the column labels. -/
def colLe (a b : ℤ × ℤ × ℕ) : Prop := a.1 < b.1 ∨ a.1 = b.1 ∧ (a.2.1 < b.2.1 ∨ a.2.1 = b.2.1 ∧ a.2.2 ≤ b.2.2)

instance : DecidableRel colLe := fun a b => by unfold colLe; infer_instance

/-- `sort_index(axis=1)`, /repo/ledsa/postprocessing/simulation.py 187. -/
def ExtTable.sortCols {K : Type} (t : ExtTable K) : ExtTable K := ⟨t.index, t.cols.insertionSort fun a b => colLe a.1 b.1⟩

/-- Removal of repeated times, /repo/ledsa/postprocessing/simulation.py 188-189. -/
def ExtTable.dropRepeated {K : Type} (t : ExtTable K) : ExtTable K :=
  let kept := firstOfEachTime t.index.zipIdx []
  ⟨kept.map (·.1), t.cols.map fun c => (c.1, kept.map fun k => (c.2[k.2]?).join)⟩

/-- `_get_extco_df_from_path`, /repo/ledsa/postprocessing/simulation.py 162-189, for the files in the order of `glob`. -/
def allExtcos {K : Type} (files : List (Str × ℕ × List (ℤ × List K))) : Except PyErr (ExtTable K) :=
  match files.mapM fun f => readCoeffTable f.1 f.2 with
  | .error e => .error e
  | .ok fs => match concatTables fs with
    | .error e => .error e
    | .ok t => .ok t.sortCols.dropRepeated

/-- `set_timeshift`, /repo/ledsa/postprocessing/simulation.py 138-139. -/
def ExtTable.shift {K : Type} (t : ExtTable K) (d : ℤ) : ExtTable K := ⟨t.index.map (· + d), t.cols⟩

/-! ### Requests -/

/-- A table with row and column labels. -/
structure Grid (R C K : Type) where
  index : List R
  cols : List (C × List (Option K))
deriving DecidableEq

/-- `get_extco_at_led_array` with layers, /repo/ledsa/postprocessing/simulation.py 281-285; `smooth` is `_apply_moving_average` on a column. A label
that does not occur raises `KeyError`. -/
def ExtTable.atArray {K : Type} (t : ExtTable K) (smooth : List (Option K) → List (Option K)) (channel array : ℤ) : Except PyErr (Grid ℤ ℕ K) :=
  match t.cols.filter fun c => c.1.1 = channel ∧ c.1.2.1 = array with
  | [] => .error .keyError
  | cs => .ok ⟨t.index, cs.map fun c => (c.1.2.2, smooth c.2)⟩

/-- `get_extco_at_layer`, /repo/ledsa/postprocessing/simulation.py 320-321. -/
def ExtTable.atLayer {K : Type} (t : ExtTable K) (smooth : List (Option K) → List (Option K)) (channel layer : ℤ) : Except PyErr (Grid ℤ ℤ K) :=
  match t.cols.filter fun c => c.1.1 = channel ∧ (c.1.2.2 : ℤ) = layer with
  | [] => .error .keyError
  | cs => .ok ⟨t.index, cs.map fun c => (c.1.2.1, smooth c.2)⟩

/-- `get_extco_at_height`, /repo/ledsa/postprocessing/simulation.py 345-346. -/
def ExtTable.atHeight {K : Type} (t : ExtTable K) (smooth : List (Option K) → List (Option K)) (lo hi : ℚ) (n : ℕ) (channel : ℤ) (height : ℚ) :
    Except PyErr (Grid ℤ ℤ K) :=
  t.atLayer smooth channel (layerFromHeight lo hi n height)

/-- `pivot(columns='LED Array', index='Layer')`, /repo/ledsa/postprocessing/simulation.py 238-240: repeated pairs of LED array and layer raise
`ValueError`; both are sorted; the rows are numbered again. -/
def pivotArrays {K : Type} (s : List ((ℤ × ℕ) × Option K)) : Except PyErr (Grid ℕ ℤ K) :=
  if (s.map (·.1)).Nodup then
    let layers := ((s.map (·.1.2)).dedup).insertionSort (· ≤ ·)
    let arrays := ((s.map (·.1.1)).dedup).insertionSort (· ≤ ·)
    .ok ⟨List.range layers.length, arrays.map fun a => (a, layers.map fun l => (s.find? fun e => e.1 = (a, l)).bind (·.2))⟩
  else .error .valueError

/-- `get_extco_at_time` with layers, /repo/ledsa/postprocessing/simulation.py 235-242: `loc` raises `KeyError` for an unknown time. -/
def ExtTable.atTime {K : Type} (t : ExtTable K) (smooth : List (Option K) → List (Option K)) (channel time : ℤ) : Except PyErr (Grid ℕ ℤ K) :=
  match t.cols.filter fun c => c.1.1 = channel with
  | [] => .error .keyError
  | cs => match t.index.findIdx? fun x => x = time with
    | none => .error .keyError
    | some i => pivotArrays (cs.map fun c => (c.1.2, ((smooth c.2)[i]?).join))

/-! ### Heights of the layers -/

/-- `rint`: the nearest integer, the even one if two are equally near. -/
def rintQ (x : ℚ) : ℤ :=
  if x - ⌊x⌋ < 1 / 2 then ⌊x⌋
  else if 1 / 2 < x - ⌊x⌋ then ⌊x⌋ + 1
  else if ⌊x⌋ % 2 = 0 then ⌊x⌋ else ⌊x⌋ + 1

/-- `np.round(x, 2)`. -/
def round2 (x : ℚ) : ℚ := rintQ (x * 100) / 100

/-- The borders of the layers, /repo/ledsa/postprocessing/simulation.py 69-70. -/
def simBorder (lo hi : ℚ) (n : ℕ) (l : ℕ) : ℚ := (l / n) * (hi - lo) + lo

/-- `layer_bottom_heights`, /repo/ledsa/postprocessing/simulation.py 71. -/
def bottomHeight (lo hi : ℚ) (n l : ℕ) : ℚ := round2 (simBorder lo hi n l)

/-- `layer_top_heights`, /repo/ledsa/postprocessing/simulation.py 72. -/
def topHeight (lo hi : ℚ) (n l : ℕ) : ℚ := round2 (simBorder lo hi n (l + 1))

/-- `layer_center_heights`, /repo/ledsa/postprocessing/simulation.py 73. -/
def centerHeight (lo hi : ℚ) (n l : ℕ) : ℚ := round2 ((bottomHeight lo hi n l + topHeight lo hi n l) / 2)

/-- Labels of the rows for `yaxis='height'`, /repo/ledsa/postprocessing/simulation.py 243-251. -/
def heightLabels (lo hi : ℚ) (n : ℕ) (reference : Str) : Except PyErr (List ℚ) :=
  if reference = "center".toList then .ok ((List.range n).map (centerHeight lo hi n))
  else if reference = "top".toList then .ok ((List.range n).map (topHeight lo hi n))
  else if reference = "bottom".toList then .ok ((List.range n).map (bottomHeight lo hi n))
  else .error .valueError

/-- `get_extco_at_time` with heights, /repo/ledsa/postprocessing/simulation.py 235-253. -/
def ExtTable.atTimeHeights {K : Type} (t : ExtTable K) (smooth : List (Option K) → List (Option K)) (lo hi : ℚ) (n : ℕ) (reference : Str)
    (channel time : ℤ) : Except PyErr (Grid ℚ ℤ K) :=
  match t.atTime smooth channel time with
  | .error e => .error e
  | .ok g => match heightLabels lo hi n reference with
    | .error e => .error e
    | .ok labels => if labels.length = g.index.length then .ok ⟨labels, g.cols⟩ else .error .valueError

end Ledsa
