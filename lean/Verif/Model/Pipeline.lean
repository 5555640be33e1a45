import Verif.Model.Alignment
import Verif.Model.Extinction
import Verif.Model.Solver
import Verif.Model.Binary
/-
Model of one complete analysis of an LED array with the linear solver, from the result files and the LED positions to the
coefficients: `analysis/ExtinctionCoefficients.py`, `analysis/ExtinctionCoefficientsLinear.py`, `analysis/Experiment.py`,
`core/file_handling.py`. The parts are those of `Model/Alignment`, `Model/Geometry`, `Model/Extinction` and `Model/Solver`.
-/
namespace Ledsa

/-- The table loaded from the result files of the images `1..N`, /repo/ledsa/core/file_handling.py 247-265. A file is a list of
LED, array number, value; its rows are sorted by LED. -/
def loadedTable {K : Type} (files : ℕ → List (ℕ × ℕ × K)) (N : ℕ) : List (ℕ × ℕ × ℕ × K) :=
  (List.range N).flatMap fun (k : ℕ) => (sortRows (files (k + 1))).map fun r => (k + 1, r)

/-- `load_img_data`, /repo/ledsa/analysis/ExtinctionCoefficients.py 130-133: the rows of the array; none ends the program. -/
def arrayData {K : Type} (t : List (ℕ × ℕ × ℕ × K)) (arr : ℕ) : Except PyErr (ImgData K) :=
  match (t.filter fun r => r.2.2.1 = arr).map fun r => (r.1, r.2.1, r.2.2.2) with
  | [] => .error .systemExit
  | d => .ok d

/-- The number in the column `name` of a row. -/
def DataTable.cell (f : DataTable) (name : String) (row : List Cell) : Cell := (row[f.cols.idxOf name]?).join

/-- Image, LED, array number and reference property of the rows of a table; the index of the table is made of the columns
`img_id` and `led_id`, /repo/ledsa/core/file_handling.py 143. A missing number is not possible in these columns of the tables
made from result files. -/
noncomputable def frameRows (f : DataTable) (prop : String) : List (ℕ × ℕ × ℕ × ℝ) := f.rows.map fun r =>
  (⌊(f.cell "img_id" r).getD 0⌋.toNat, ⌊(f.cell "led_id" r).getD 0⌋.toNat, ⌊(f.cell "led_array_id" r).getD 0⌋.toNat,
    (((f.cell prop r).getD 0 : ℚ) : ℝ))

/-- `load_img_data` on the table read, /repo/ledsa/analysis/ExtinctionCoefficients.py 130-133: a table without the reference
property raises `KeyError`. -/
noncomputable def frameData (f : DataTable) (prop : String) (arr : ℕ) : Except PyErr (ImgData ℝ) :=
  if prop ∈ f.cols then arrayData (frameRows f prop) arr else .error .keyError

/-- `calc_distance_array`, /repo/ledsa/analysis/ExtinctionCoefficients.py 161-175. Missing distances (`None`) become a row of
`nan`, here `none`. -/
noncomputable def distanceArray (cam : P3) (ls : List Layer) (leds : List P3) : List (Option (List ℝ)) :=
  distanceRows (fun led => match distPerLayer cam led ls with
    | .dists d => some d
    | _ => none) leds

/-- An analysis of one LED array: camera, domain bounds, number of layers, coordinates of all LEDs, LED ids of the array as read
from its file, its number, choice of the reference images, regularisation, whether several cores are used. -/
structure ArrayAnalysis where
  cam : P3
  lo : ℝ
  hi : ℝ
  layers : ℕ
  coordinates : List P3
  ids : List ℕ
  arr : ℕ
  ref : RefChoice
  lam : ℝ
  parallel : Bool

/-- `set_all_member_variables` and the relative intensities, /repo/ledsa/analysis/ExtinctionCoefficients.py 73-118, for the
loaded values of the array. -/
noncomputable def ArrayAnalysis.inputOf (a : ArrayAnalysis) (data : Except PyErr (ImgData ℝ)) :
    Except PyErr (List (Option (List ℝ)) × List (List ℝ)) := do
  let leds ← ledPositions a.coordinates a.ids
  let data ← data
  let ref := refIntensities a.ref data
  let rels ← if a.parallel then poolRel data ref else serialRel data ref
  .ok (distanceArray a.cam (Ledsa.layers a.lo a.hi a.layers) leds, rels)

/-- The same from the result files. -/
noncomputable def ArrayAnalysis.solverInput (a : ArrayAnalysis) (files : ℕ → List (ℕ × ℕ × ℝ)) (N : ℕ) :
    Except PyErr (List (Option (List ℝ)) × List (List ℝ)) :=
  a.inputOf (arrayData (loadedTable files N) a.arr)

/-- Entry of a distance matrix. -/
def distEntry (M : List (List ℝ)) {n : ℕ} (i : Fin M.length) (l : Fin n) : ℝ := M[i].getD l 0

/-- `calc_coefficients_of_img`, /repo/ledsa/analysis/ExtinctionCoefficientsLinear.py 43-92: what may be the result `r` for one
image. `nnls` rejects `nan` and rows that do not fit to the right hand side. -/
def LinearImage (n : ℕ) (rows : List (Option (List ℝ))) (lam : ℝ) (rel : List ℝ) (r : Except PyErr (Fin n → ℝ)) : Prop :=
  match rows.mapM id with
  | none => r = .error .valueError
  | some M =>
    if rel.length = M.length then
      ∃ σ, r = .ok σ ∧ LinearSolution (distEntry M) lam (fun (i : Fin M.length) => rel.getD i 0) σ
    else r = .error .valueError

/-- `calc_and_set_coefficients(_mp)` of a new object, /repo/ledsa/analysis/ExtinctionCoefficients.py 73-103: what may be the
coefficients of all images. -/
def ArrayAnalysis.ResultOf (a : ArrayAnalysis) (input : Except PyErr (List (Option (List ℝ)) × List (List ℝ)))
    (r : Except PyErr (List (Fin a.layers → ℝ))) : Prop :=
  match input with
  | .error e => r = .error e
  | .ok (rows, rels) => ∃ rs, List.Forall₂ (LinearImage a.layers rows a.lam) rels rs ∧ r = rs.mapM id

/-- The same from the result files. -/
def ArrayAnalysis.Result (a : ArrayAnalysis) (files : ℕ → List (ℕ × ℕ × ℝ)) (N : ℕ)
    (r : Except PyErr (List (Fin a.layers → ℝ))) : Prop := a.ResultOf (a.solverInput files N) r

end Ledsa
