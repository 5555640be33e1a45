import Verif.Model.Coordinates
import Verif.Model.Analysis
import Verif.Model.Step3

/-!
# Loading of result tables and the binary files

`/repo/ledsa/core/file_handling.py` 74-143 and 203-400, `/repo/ledsa/analysis/Experiment.py` 273-313.

A text table is the list of its rows of numbers. A missing number (NaN) is `none`. A binary file holds one table; the fallback
key `/table` of older binary files is not modelled, nor are damaged files.
-/

namespace Ledsa

/-- A numpy array of numbers with up to two dimensions. -/
inductive NpArr
  | scalar (x : ℚ)
  | vec (l : List ℚ)
  | mat (rows : List (List ℚ))
deriving DecidableEq

/-- `np.loadtxt`: rows of different length raise `ValueError`; axes of length one are dropped; an empty file gives an empty
vector. -/
def loadtxt (rows : List (List ℚ)) : Except PyErr NpArr :=
  match rows with
  | [] => .ok (.vec [])
  | r :: rest =>
    if ∀ s ∈ rest, s.length = r.length then
      match r, rest with
      | [x], [] => .ok (.scalar x)
      | r, [] => .ok (.vec r)
      | [x], rest => .ok (.vec (x :: rest.flatten))
      | r, rest => .ok (.mat (r :: rest))
    else .error .valueError

/-- `np.atleast_1d`. -/
def NpArr.atleast1d : NpArr → NpArr
  | .scalar x => .vec [x]
  | a => a

/-- `np.atleast_2d`. -/
def NpArr.atleast2d : NpArr → NpArr
  | .scalar x => .mat [[x]]
  | .vec l => .mat [l]
  | a => a

/-- `read_table` for numbers, file_handling.py 74-113; `none` is a missing file. -/
def readTable (file : Option (List (List ℚ))) (twoD : Bool) : Except PyErr NpArr :=
  match file with
  | none => .error .fileNotFound
  | some rows => (loadtxt rows).map fun a => if twoD then a.atleast2d else a.atleast1d

/-- `a.shape[1]`. -/
def NpArr.shape1 : NpArr → Except PyErr ℕ
  | .mat (r :: _) => .ok r.length
  | .mat [] => .ok 0
  | _ => .error .indexError

/-- The rows of a table with their first column as id; `a[:, 0]` of a vector raises `IndexError`. Ids are natural numbers. -/
def NpArr.idRows : NpArr → Except PyErr (List (ℕ × List ℚ))
  | .mat rows => rows.mapM fun r => match r with
    | [] => .error .indexError
    | x :: v => .ok (⌊x⌋.toNat, v)
  | _ => .error .indexError

/-- `a[:, [0, -2, -1]]`. -/
def NpArr.coordRows (a : NpArr) : Except PyErr (List (ℕ × ℚ × ℚ)) :=
  match a with
  | .mat rows => rows.mapM fun r => match r, r.reverse with
    | x :: _, h :: w :: _ => .ok (⌊x⌋.toNat, w, h)
    | _, _ => .error .indexError
  | _ => .error .indexError

/-- A number of a table. -/
abbrev Cell := Option ℚ

/-- A pandas table. -/
structure DataTable where
  cols : List String
  rows : List (List Cell)
deriving DecidableEq

/-- `_append_coordinates` once the coordinates are known, file_handling.py 358-376: without a file they are NaN. -/
def withCoordinates (rows : List (ℕ × List ℚ)) (coord : Option (List (ℕ × ℚ × ℚ))) :
    Except PyErr (List (ℕ × List ℚ × Cell × Cell)) :=
  match coord with
  | none => .ok ((sortRows rows).map fun r => (r.1, r.2, none, none))
  | some c => (loadWithCoordinates rows c).map fun l => l.map fun r => (r.1, r.2.1, some r.2.2.1, some r.2.2.2)

/-- A row of the table: image, LED, values, coordinates; `_param_array_to_dataframe`, file_handling.py 332-335. -/
def frameRow (img : ℕ) (r : ℕ × List ℚ × Cell × Cell) : List Cell :=
  some (img : ℚ) :: some (r.1 : ℚ) :: (r.2.1.map some ++ [r.2.2.1, r.2.2.2])

/-- The rows of one image, file_handling.py 248-263. A missing file ends in `DataFrame.append`, which pandas 2 does not have. -/
def loadImage (file : Option (List (List ℚ))) (coord : Option (List (ℕ × ℚ × ℚ))) (cols : List String) (img : ℕ) :
    Except PyErr (List (List Cell)) :=
  match readTable file false with
  | .error .fileNotFound => .error .attributeError
  | .error e => .error e
  | .ok a => do
    let rows ← a.idRows
    let rows ← withCoordinates rows coord
    let rows := rows.map (frameRow img)
    if ∀ r ∈ rows, r.length = cols.length then .ok rows else .error .valueError

/-- `astype(int)` of one number. -/
def castAt : ℕ → List Cell → Except PyErr (List Cell)
  | _, [] => .error .indexError
  | 0, none :: _ => .error .valueError
  | 0, some q :: r => .ok (some (truncZero q : ℚ) :: r)
  | k + 1, c :: r => (castAt k r).map (c :: ·)

/-- `fit_params[name] = fit_params[name].astype(int)`. -/
def castCol (f : DataTable) (name : String) : Except PyErr DataTable :=
  if name ∈ f.cols then (f.rows.mapM (castAt (f.cols.idxOf name))).map (⟨f.cols, ·⟩) else .error .keyError

/-- The table for `n` images, file_handling.py 247-272; `pd.concat` of nothing raises `ValueError`. -/
def buildFrame (csv : ℕ → Option (List (List ℚ))) (coord : Option (List (ℕ × ℚ × ℚ))) (cols : List String) (n : ℕ) :
    Except PyErr DataTable := do
  let rows ← (List.range n).mapM fun (k : ℕ) => loadImage (csv (k + 1)) coord cols (k + 1)
  if n = 0 then .error .valueError
  else ["img_id", "led_id", "led_array_id", "max_col_val", "sum_col_val"].foldlM castCol ⟨cols, rows.flatten⟩

/-- Directories with their files, and what a running program remembers. `count` is the number of images according to the
configuration of a directory (`binaryImageCount`), `cache` the attribute of `_append_coordinates`. -/
structure HdfWorld where
  csv : Str → ℕ → ℕ → Option (List (List ℚ))
  coord : Str → Option (List (List ℚ))
  binary : Str → ℕ → Option DataTable
  count : Str → Except PyErr Int
  cwd : Str
  cache : Option (Option (List (ℕ × ℚ × ℚ)))

/-- The coordinates used, file_handling.py 350-356: looked up once in a program. -/
def coordinatesOf (w : HdfWorld) : Except PyErr (Option (List (ℕ × ℚ × ℚ))) :=
  match w.cache with
  | some c => .ok c
  | none => match readTable (w.coord w.cwd) false with
    | .error .fileNotFound => .ok none
    | .error e => .error e
    | .ok a => a.coordRows.map some

/-- The table written by `create_binary_data` and the coordinates remembered, file_handling.py 227-272. -/
def newFrame (w : HdfWorld) (ch : ℕ) : Except PyErr DataTable × Option (Option (List (ℕ × ℚ × ℚ))) :=
  match (readTable (w.csv w.cwd ch 1) false).bind NpArr.shape1 with
  | .error e => (.error e, w.cache)
  | .ok k => match w.count w.cwd with
    | .error e => (.error e, w.cache)
    | .ok n => if n ≤ 0 then (.error .valueError, w.cache) else
      match coordinatesOf w with
      | .error e => (.error e, w.cache)
      | .ok c => (buildFrame (w.csv w.cwd ch) c (columnNames k ++ ["width", "height"]) n.toNat, some c)

/-- A binary file set. -/
def HdfWorld.setBinary (w : HdfWorld) (d : Str) (ch : ℕ) (f : DataTable) : HdfWorld :=
  { w with binary := fun d' ch' => if d' = d ∧ ch' = ch then some f else w.binary d' ch' }

/-- `create_binary_data`, file_handling.py 220-274: rows are appended to an existing file, which needs the same columns. -/
def createBinary (w : HdfWorld) (ch : ℕ) : Except PyErr Unit × HdfWorld :=
  let r := newFrame w ch
  let w' := { w with cache := r.2 }
  match r.1 with
  | .error e => (.error e, w')
  | .ok f => match w.binary w.cwd ch with
    | none => (.ok (), w'.setBinary w.cwd ch f)
    | some g => if f.cols = g.cols then (.ok (), w'.setBinary w.cwd ch ⟨g.cols, g.rows ++ f.rows⟩) else (.error .valueError, w')

/-- `read_hdf`, file_handling.py 116-143. -/
def readHdf (w : HdfWorld) (ch : ℕ) (path : Str) : Except PyErr DataTable × HdfWorld :=
  match w.binary path ch with
  | some f => (.ok f, w)
  | none =>
    match createBinary w ch with
    | (.error e, w') => (.error e, w')
    | (.ok _, w') => match w'.binary path ch with
      | some f => (.ok f, w')
      | none => (.error .fileNotFound, w')

/-- `frame[name] = values`: a new last column or new values of an existing one. -/
def setColumn (f : DataTable) (name : String) (values : List ℚ) : Except PyErr DataTable :=
  if values.length ≠ f.rows.length then .error .valueError
  else if name ∈ f.cols then .ok ⟨f.cols, List.zipWith (fun r v => r.set (f.cols.idxOf name) (some v)) f.rows values⟩
  else .ok ⟨f.cols ++ [name], List.zipWith (fun r v => r ++ [some v]) f.rows values⟩

/-- `extend_hdf`, file_handling.py 203-217. -/
def extendHdf (w : HdfWorld) (ch : ℕ) (name : String) (values : List ℚ) : Except PyErr Unit × HdfWorld :=
  match w.binary w.cwd ch with
  | none => (.error .fileNotFound, w)
  | some f => match setColumn f name values with
    | .error e => (.error e, w)
    | .ok g => (.ok (), w.setBinary w.cwd ch g)

/-- What happens to a directory over time: step 3 writes result files, coordinates are calculated, a new program is started,
the analysis reads the results, a column is added (colour correction). -/
inductive HdfOp
  | step3 (ch : ℕ) (tables : ℕ → Option (List (List ℚ)))
  | coordinates (table : List (List ℚ))
  | newProgram
  | chdir (d : Str)
  | analyse (ch : ℕ)

/-- Effect of an operation. Files of images that are not processed again stay. -/
def HdfOp.run (w : HdfWorld) : HdfOp → HdfWorld
  | .step3 ch t => { w with csv := fun d ch' img => if d = w.cwd ∧ ch' = ch then (t img).or (w.csv d ch' img) else w.csv d ch' img }
  | .coordinates t => { w with coord := fun d => if d = w.cwd then some t else w.coord d }
  | .newProgram => { w with cache := none }
  | .chdir d => { w with cwd := d }
  | .analyse ch => (readHdf w ch w.cwd).2

/-! ### LEDs of the analysis -/

/-- `search_areas_all[led_id]` and the columns 3 to 5, Experiment.py 310-313, for a table read by `np.loadtxt`. -/
def arrayPositions (all : NpArr) (ids : List ℕ) : Except PyErr (List (ℚ × ℚ × ℚ)) :=
  match all with
  | .mat rows =>
    if ids = [] then .error .indexError
    else ids.mapM fun i => match rows[i]? with
      | none => .error .indexError
      | some r => match r with
        | _ :: _ :: _ :: x :: y :: z :: _ => .ok (x, y, z)
        | _ => .error .indexError
  | _ => .error .indexError

/-- `set_leds`, Experiment.py 273-313: a file with one id gives an array without dimension, which cannot be iterated. -/
def setLeds (idFile coordFile : List (List ℚ)) : Except PyErr (List (ℕ × ℚ × ℚ × ℚ)) := do
  let ids ← (← loadtxt idFile) |> fun a => match a with
    | .vec l => .ok (l.map fun x => ⌊x⌋.toNat)
    | .scalar _ => .error .typeError
    | .mat _ => .error .indexError
  let pos ← arrayPositions (← loadtxt coordFile) ids
  .ok (ids.zip pos)

/-- `search_areas[iled, 1]` and `search_areas[iled, 2]` of step 3, step_3_functions.py 138-139, after `load_search_areas`,
DataExtractor.py 70-75. -/
def searchArea (file : Option (List (List ℚ))) (led : ℕ) : Except PyErr (ℤ × ℤ) := do
  match ← readTable file false with
  | .mat rows => match rows[led]? with
    | some (_ :: x :: y :: _) => .ok (truncZero x, truncZero y)
    | _ => .error .indexError
  | _ => .error .indexError

end Ledsa
