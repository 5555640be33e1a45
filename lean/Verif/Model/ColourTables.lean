import Verif.Model.Binary
import Verif.Model.Pipeline

/-!
# Colour correction of the tables of all channels

`/repo/ledsa/analysis/data_preparation.py` 7-28 and `/repo/ledsa/core/parser_arguments_run.py` 142-156 on the binary files of
`Model/Binary`. The matrix product is exact. The file of the matrix is a square table of numbers.
-/

namespace Ledsa

/-- The key of a row of a table: image and LED, `set_index(['img_id', 'led_id'])`, /repo/ledsa/core/file_handling.py 142. -/
def DataTable.keys (f : DataTable) : List (Cell × Cell) := f.rows.map fun r => (f.cell "img_id" r, f.cell "led_id" r)

/-- `read_hdf(channel)[quantity]`, /repo/ledsa/analysis/data_preparation.py 22: the column with its keys. The key columns are no
columns any more. -/
def DataTable.keyed (f : DataTable) (prop : String) : Except PyErr (List ((Cell × Cell) × Cell)) :=
  if prop ∈ f.cols ∧ prop ≠ "img_id" ∧ prop ≠ "led_id" then .ok (f.keys.zip (f.rows.map (f.cell prop))) else .error .keyError

/-- The columns of the channels, /repo/ledsa/analysis/data_preparation.py 21-23. Reading may create a binary file. -/
def readColumns (prop : String) : List ℕ → HdfWorld → Except PyErr (List (List ((Cell × Cell) × Cell))) × HdfWorld
  | [], w => (.ok [], w)
  | ch :: chs, w => match readHdf w ch w.cwd with
    | (.error e, w) => (.error e, w)
    | (.ok f, w) => match f.keyed prop with
      | .error e => (.error e, w)
      | .ok c => match readColumns prop chs w with
        | (.error e, w) => (.error e, w)
        | (.ok cs, w) => (.ok (c :: cs), w)

/-- All keys of some lists, in the order of their first occurrence. -/
def unionKeys {α : Type} [DecidableEq α] : List (List α) → List α
  | [] => []
  | l :: ls => l ++ (unionKeys ls).filter fun k => k ∉ l

/-- `pd.concat(columns, axis=1)`, /repo/ledsa/analysis/data_preparation.py 24: columns with the same keys are put side by side;
otherwise the rows are all keys that occur, with NaN where a column has no value, and keys that occur twice are an error. Nothing to
put together is an error too. -/
def besideEachOther {α : Type} [DecidableEq α] (cols : List (List (α × Cell))) : Except PyErr (List (List Cell)) :=
  match cols with
  | [] => .error .valueError
  | c :: cs =>
    if ∀ d ∈ cs, d.map (·.1) = c.map (·.1) then
      .ok ((List.range c.length).map fun (i : ℕ) => (c :: cs).map fun d => (d[i]?.map (·.2)).join)
    else if ∀ d ∈ c :: cs, (d.map (·.1)).Nodup then
      .ok ((unionKeys ((c :: cs).map fun d => d.map (·.1))).map fun k => (c :: cs).map fun d => (d.lookup k).join)
    else .error .valueError

/-- One row of `np.dot(cc_matrix_inv, raw_val_array.T).T.astype(np.int16)`, /repo/ledsa/analysis/data_preparation.py 25-26. A NaN
makes the whole row NaN, which becomes some number `nan`. -/
noncomputable def correctRow {n : ℕ} (to16 : Int16Cast) (nan : ℤ) (M : Matrix (Fin n) (Fin n) ℚ) (row : List Cell) : List ℤ :=
  List.ofFn fun k : Fin n => match row.mapM id with
    | none => nan
    | some v => to16.cast (∑ j : Fin n, M⁻¹ k j * v.getD j 0)

/-- `for channel in channels: extend_hdf(channel, quantity + '_cc', cc_val_array[:, channel])`,
/repo/ledsa/analysis/data_preparation.py 27-28, for an array with `n` columns. -/
def storeColumns (n : ℕ) (name : String) (cc : List (List ℤ)) : List ℕ → HdfWorld → Except PyErr Unit × HdfWorld
  | [], w => (.ok (), w)
  | ch :: chs, w =>
    if n ≤ ch then (.error .indexError, w)
    else match extendHdf w ch name (cc.map fun r => ((r.getD ch 0 : ℤ) : ℚ)) with
      | (.error e, w) => (.error e, w)
      | (.ok _, w) => storeColumns n name cc chs w

/-- `apply_color_correction`, /repo/ledsa/analysis/data_preparation.py 7-28. -/
noncomputable def colourCorrect {n : ℕ} (to16 : Int16Cast) (nan : ℤ) (M : Matrix (Fin n) (Fin n) ℚ) (prop : String)
    (channels : List ℕ) (w : HdfWorld) : Except PyErr Unit × HdfWorld :=
  if M.det = 0 then (.error .linAlgError, w)
  else match readColumns prop channels w with
    | (.error e, w) => (.error e, w)
    | (.ok cols, w) => match besideEachOther cols with
      | .error e => (.error e, w)
      | .ok rows => if channels.length ≠ n then (.error .valueError, w)
        else storeColumns n (prop ++ "_cc") (rows.map (correctRow to16 nan M)) channels w

/-- `apply_cc_on_ref_property`, /repo/ledsa/core/parser_arguments_run.py 142-156: without the file of the matrix the program ends. -/
noncomputable def ccCommand {n : ℕ} (to16 : Int16Cast) (nan : ℤ) (matrix : Option (Matrix (Fin n) (Fin n) ℚ)) (prop : String)
    (channels : List ℕ) (w : HdfWorld) : Except PyErr Unit × HdfWorld :=
  match matrix with
  | none => (.error .systemExit, w)
  | some M => colourCorrect to16 nan M prop channels w

end Ledsa
