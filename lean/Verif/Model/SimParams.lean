import Verif.Model.SimData
import Verif.Model.Extraction
import Verif.Model.EndToEnd

/-! # LED parameters read by the post-processing -/

namespace Ledsa

/-- A number in a cell as a natural number (`led_id` and `led_array_id` are integer columns, file_handling.py 324-356). -/
def cellNat (c : Cell) : ℕ := (c.map fun q => (⌊q⌋).toNat).getD 0

/-- A row of the joined table: image number, LED, array and the parameter in column `col`, with the time of the image. A
parameter that is no number gives no row (columns written by the extraction have none). -/
def parRowOf (col : ℕ) (r : List Cell) (t : ℤ) : Option ParRow :=
  match r with
  | _ :: led :: arr :: _ => match r[col]? with
    | some (some v) => some ⟨t, cellNat led, cellNat arr, v⟩
    | _ => none
  | _ => none

/-- `_get_ledparams_df_from_path` and the selection of one parameter, /repo/ledsa/postprocessing/simulation.py 142-160 and
376-382: the table of the channel joined with the times of the image list by image number (inner join in the order of the table),
the times as integers; without a column `height`, or the parameter, `KeyError`. -/
def ledParamTable (f : DataTable) (param : String) (infos : List InfoRow) : Except PyErr (List ParRow) := do
  let times ← experimentTimes infos
  if "height" ∉ f.cols ∨ param ∉ f.cols then .error .keyError
  else .ok ((f.rows.map fun r =>
    ((infos.zip times).filter fun p => r.head? = some (some (p.1.idx : ℚ))).filterMap fun p =>
      parRowOf (f.cols.idxOf param) r p.2).flatten)

end Ledsa
