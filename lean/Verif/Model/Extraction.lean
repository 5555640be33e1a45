import Verif.Model.Binary
import Verif.Model.Images
import Verif.Model.Step2
import Mathlib.Data.Int.Log
/-
Model of the text files between the steps of the data extraction: search areas, LED arrays, images to process and result files
with their numbers as text. `/repo/ledsa/data_extraction/DataExtractor.py`, `/repo/ledsa/data_extraction/step_3_functions.py`,
`/repo/ledsa/data_extraction/LEDAnalysisData.py`, `/repo/ledsa/core/file_handling.py`.
-/
namespace Ledsa

/-! ### Numbers as text -/

/-- `f'{s:w}'` of a number: blanks on the left. -/
def padLeft (w : ℕ) (s : Str) : Str := List.replicate (w - s.length) ' ' ++ s

/-- Five digit mantissa and exponent of `f'{q:.4e}'` for `q ≥ 0`: the nearest number with five digits, ties to even. -/
def sciParts (q : ℚ) : ℕ × ℤ :=
  if q = 0 then (0, 0)
  else
    let e := Int.log 10 q
    let m := (rne (q / (10 : ℚ) ^ (e - 4))).toNat
    if m = 100000 then (10000, e + 1) else (m, e)

/-- The exponent as text, with a sign and at least two digits. -/
def expText (e : ℤ) : Str := (if e < 0 then '-' else '+') :: zfill 2 (natStr e.natAbs)

/-- `f'{q:10.4e}'`, /repo/ledsa/data_extraction/LEDAnalysisData.py 70, 81-84: the minimal width of ten characters is always
reached. -/
def fmtSci (q : ℚ) : Str :=
  (if q < 0 then ['-'] else []) ++ natStr ((sciParts |q|).1 / 10000) ++ '.' :: zfill 4 (natStr ((sciParts |q|).1 % 10000)) ++
    'e' :: expText (sciParts |q|).2

/-- An unsigned decimal number, `12` or `1.25`. -/
def readDecimal (s : Str) : Option ℚ :=
  match splitChar '.' s with
  | [a] => (parseNat a).map fun (n : ℕ) => (n : ℚ)
  | [a, f] => if a = [] ∨ f = [] then none else (parseNat (a ++ f)).map fun (n : ℕ) => (n : ℚ) / 10 ^ f.length
  | _ => none

/-- The exponent of a number. -/
def readExp (s : Str) : Option ℤ :=
  match s with
  | '-' :: t => (parseNat t).map fun (n : ℕ) => -(n : ℤ)
  | '+' :: t => (parseNat t).map fun (n : ℕ) => (n : ℤ)
  | t => (parseNat t).map fun (n : ℕ) => (n : ℤ)

/-- An unsigned number with or without exponent. -/
def readUnsigned (s : Str) : Option ℚ :=
  match splitChar 'e' s with
  | [m] => readDecimal m
  | [m, x] => match readDecimal m, readExp x with
    | some q, some e => some (q * (10 : ℚ) ^ e)
    | _, _ => none
  | _ => none

/-- The conversion of a field by `np.loadtxt`, as `float(s)`: blanks around it, a sign, digits, fraction, exponent. (`nan`, `inf`,
`1.`, `.5`, capital `E` and underscores are not modelled.) -/
def readFloat (s : Str) : Option ℚ :=
  match strip s with
  | '-' :: t => (readUnsigned t).map (- ·)
  | '+' :: t => readUnsigned t
  | t => readUnsigned t

/-- `np.loadtxt(file, delimiter=',')`, /repo/ledsa/core/file_handling.py 94, up to the shape: comments and empty lines are
skipped, a field that is no number raises `ValueError`. -/
def loadNumbers (text : Str) : Except PyErr (List (List ℚ)) :=
  match (loadCsv (splitChar '\n' text)).mapM fun row => row.mapM readFloat with
  | some rows => .ok rows
  | none => .error .valueError

/-! ### Result files -/

/-- The texts of the values of an LED, `get_main_data_string`, /repo/ledsa/data_extraction/LEDAnalysisData.py 62-71. Pixel values
are integers, so the maximum is written as an integer. -/
def rowText (id arr : ℕ) (m : Measured ℚ) : RowText :=
  ⟨padLeft 4 (natStr id), padLeft 2 (natStr arr), fmtSci m.sum, fmtSci m.mean, intStr ⌊m.max⌋⟩

/-- The values of a fit, `fit_results.x`, centre, success, target value, number of evaluations and time. -/
structure FitValues where
  cx : ℚ
  cy : ℚ
  x : ℚ
  y : ℚ
  dx : ℚ
  dy : ℚ
  a : ℚ
  alpha : ℚ
  wx : ℚ
  wy : ℚ
  success : Bool
  fn : ℚ
  nfev : ℕ
  time : ℚ

/-- `get_fit_data_string`, /repo/ledsa/data_extraction/LEDAnalysisData.py 73-85. -/
def fitText (f : FitValues) : FitText :=
  ⟨fmtSci f.cx, fmtSci f.cy, fmtSci f.x, fmtSci f.y, fmtSci f.dx, fmtSci f.dy, fmtSci f.a, fmtSci f.alpha, fmtSci f.wx, fmtSci f.wy,
    padLeft 12 (natStr (if f.success then 1 else 0)), fmtSci f.fn, padLeft 9 (natStr f.nfev), fmtSci f.time⟩

/-- `_create_header`, /repo/ledsa/data_extraction/step_3_functions.py 283-312. -/
def headerText (root name : Str) (channel : ℕ) (time : Str) (fit : Bool) : Str :=
  "# image root = ".toList ++ root ++ ", photo file name = ".toList ++ name ++ ", channel = ".toList ++ natStr channel ++
    ", time[s] = ".toList ++ time ++ "\n".toList ++ "# id,line,sum_col_value,average_col_value,max_col_value".toList ++
    (if fit then ",led_center_x, led_center_y,x,y,dx,dy,A,alpha,wx,wy,fit_success,fit_fun,fit_nfev,fit_time// all spatial quantities in pixel coordinates\n".toList
      else "\n".toList)

/-- One line of a result file, `str(led_data)`, /repo/ledsa/data_extraction/LEDAnalysisData.py 48-60. -/
def resultLine (fit : Option (ℕ → FitValues)) (r : ℕ × ℕ × Measured ℚ) : Str :=
  rowString (rowText r.1 r.2.1 r.2.2) (fit.map fun f => fitText (f r.1)) ++ ['\n']

/-- `_save_results_in_file`, /repo/ledsa/data_extraction/step_3_functions.py 165-188; without rows `img_data[0]` raises
`IndexError`. -/
def resultText (root name : Str) (channel : ℕ) (time : Str) (fit : Option (ℕ → FitValues)) (rows : List (ℕ × ℕ × Measured ℚ)) :
    Except PyErr Str :=
  match rows with
  | [] => .error .indexError
  | r :: rs => .ok (headerText root name channel time fit.isSome ++ ((r :: rs).map (resultLine fit)).flatten)

/-- `create_fit_result_file`, /repo/ledsa/data_extraction/step_3_functions.py 61-77: the name is looked up by the image id, the
time is column 3 of row `img_id - 1` of the image infos (index `-1` is the last row). -/
def resultFile (infos : List Str) (root : Str) (imgId : Str) (channel : ℕ) (fit : Option (ℕ → FitValues))
    (rows : List (ℕ × ℕ × Measured ℚ)) : Except PyErr Str := do
  let name ← getImgName infos imgId
  let i ← pyInt imgId
  let table := loadCsv infos
  let k : ℤ := if i - 1 < 0 then (table.length : ℤ) + (i - 1) else i - 1
  if k < 0 then .error .indexError
  else match table[k.toNat]? with
    | some (_ :: _ :: _ :: t :: _) => resultText root name channel t fit rows
    | _ => .error .indexError

/-- Step 3 for one image and channel, `process_img_file`, /repo/ledsa/data_extraction/DataExtractor.py 245-258, without the log:
the content of the result file. `fit` are the values of the fits, if LEDs are fitted. -/
def step3Text (infos : List Str) (root : Str) (channel : ℕ) (areas : List (ℤ × ℤ)) (R : ℕ) (skip : ℕ) (arrays : List (List ℕ))
    (img : Image ℚ) (fit : Option (ℕ → FitValues)) (imgId : Str) : Except PyErr Str := do
  let rows ← imageRows img areas R fit.isSome skip arrays
  resultFile infos root imgId channel fit rows

/-- `read_table` of a result file up to the shape, /repo/ledsa/core/file_handling.py 248-251; a missing file is reported later. -/
def tableOfText (file : Option Str) : Except PyErr (Option (List (List ℚ))) :=
  match file with
  | none => .ok none
  | some s => (loadNumbers s).map some

/-- The table of `create_binary_data` for result files given as text, /repo/ledsa/core/file_handling.py 220-272: a file that
cannot be read raises `ValueError`, which is not caught. (Which of several exceptions comes first is not distinguished.) -/
def textFrame (w : HdfWorld) (ch : ℕ) (files : ℕ → Option Str) : Except PyErr DataTable := do
  let n ← w.count w.cwd
  let tables ← (List.range n.toNat).mapM fun (k : ℕ) => tableOfText (files (k + 1))
  (newFrame { w with csv := fun _ _ i => ((tables[i - 1]?).getD none) } ch).1

/-! ### Search areas -/

/-- `write_search_areas`, /repo/ledsa/data_extraction/DataExtractor.py 77-89: `np.savetxt` with `fmt='%d'` and a header. -/
def areasText (reordered : Bool) (areas : List (ℤ × ℤ × ℤ)) : Str :=
  (if reordered then "# LED id (reordered), pixel position x, pixel position y\n".toList
    else "# LED id, pixel position x, pixel position y\n".toList) ++
  (areas.map fun a => joinChar ',' [intStr a.1, intStr a.2.1, intStr a.2.2] ++ ['\n']).flatten

/-- A row of the search areas after `np.loadtxt(..., dtype='int')`. -/
def areaRow (row : List Str) : Except PyErr (ℤ × ℤ × ℤ) :=
  match row with
  | [a, b, c] => do .ok (← pyInt a, ← pyInt b, ← pyInt c)
  | _ => .error .valueError

/-- `load_search_areas`, /repo/ledsa/data_extraction/DataExtractor.py 70-75, for files with three columns. The rows; with a
single row the array has one dimension only, which is taken into account where it is used (`areaOf`). -/
def loadAreas (text : Str) : Except PyErr (List (ℤ × ℤ × ℤ)) := (loadCsv (splitChar '\n' text)).mapM areaRow

/-- `search_areas[iled, 1]`, `search_areas[iled, 2]`, /repo/ledsa/data_extraction/step_3_functions.py 138-139: the row number is
the LED id; an array of one dimension raises `IndexError`. -/
def areaOf (loaded : Bool) (areas : List (ℤ × ℤ × ℤ)) (led : ℕ) : Except PyErr (ℤ × ℤ) :=
  if loaded ∧ areas.length ≤ 1 then .error .indexError
  else match areas[led]? with
    | some a => .ok a.2
    | none => .error .indexError

/-! ### LED arrays -/

/-- The index files of `generate_led_array_indices_files`, /repo/ledsa/data_extraction/step_2_functions.py 289-313. Files of
arrays beyond the last one stay as they are. -/
def writeIndexFiles (ext : Str) (arrays : List (List ℕ)) (files : Str → Option Str) : Str → Option Str := fun name =>
  match (List.range arrays.length).find? fun (i : ℕ) => indexFileName i ext = name with
  | some i => some (indexFile ((arrays[i]?).getD []))
  | none => files name

/-- Step 2: the index files, then those of the merged arrays if merging is configured,
/repo/ledsa/data_extraction/DataExtractor.py 165-177. The arrays are numbered anew before. `groups` is the merge configuration. -/
def step2Files (arrays : List (List ℕ)) (groups : Option (List (List ℤ))) (files : Str → Option Str) : Str → Option Str :=
  let f := writeIndexFiles [] (reorderIndices arrays) files
  match groups with
  | none => f
  | some g => writeIndexFiles "_merge".toList (mergeArrays (reorderIndices arrays) g) f

/-- `read_table` of an index file that may be missing, /repo/ledsa/core/file_handling.py 93-99. -/
def loadIndexFile (file : Option Str) : Except PyErr (List ℤ) :=
  match file with
  | none => .error .fileNotFound
  | some s => readIndexFile s

/-- `load_led_array_indices`, /repo/ledsa/data_extraction/DataExtractor.py 179-193: as many files as the configuration says. -/
def loadArrays (numArrays : ℤ) (groups : Option (List (List ℤ))) (files : Str → Option Str) : Except PyErr (List (List ℤ)) :=
  let n : ℕ := match groups with | none => numArrays.toNat | some g => g.length
  let ext : Str := match groups with | none => [] | some _ => "_merge".toList
  (List.range n).mapM fun (i : ℕ) => loadIndexFile (files (indexFileName i ext))

/-! ### Images to process -/

/-- `create_imgs_to_process_file`, /repo/ledsa/data_extraction/step_3_functions.py 80-90. -/
def imgsToProcessText (names : List Str) : Str := (names.map fun n => n ++ ['\n']).flatten

/-- What iterating over the array read by `read_table('images_to_process.csv', dtype=str)` gives: names, or rows of fields.
`np.loadtxt` with blank as delimiter; rows of different length raise `ValueError`. -/
inductive ImgItems
  | names (l : List Str)
  | rows (l : List (List Str))
deriving DecidableEq

/-- `read_table('images_to_process.csv', dtype=str)`, /repo/ledsa/data_extraction/DataExtractor.py 231. One row of several fields
is an array of one dimension: its fields are taken as names. -/
def readImgsToProcess (text : Str) : Except PyErr ImgItems :=
  let rows := (((splitChar '\n' text).map fun l => l.takeWhile (· != '#')).filter (fun l => l ≠ [])).map (splitChar ' ')
  match rows with
  | [] => .ok (.names [])
  | [r] => .ok (.names r)
  | r :: rest =>
    if ∀ s ∈ rest, s.length = r.length then
      if r.length = 1 then .ok (.names ((r :: rest).flatten)) else .ok (.rows (r :: rest))
    else .error .valueError

/-- The images of `process_image_data`, /repo/ledsa/data_extraction/DataExtractor.py 231-252, with their ids: `get_img_id` of a
row of fields compares an array with a text, whose truth value is ambiguous (`ValueError`). -/
def imagesToProcess (infos : List Str) (text : Str) : Except PyErr (List (Str × Str)) := do
  match ← readImgsToProcess text with
  | .names l => l.mapM fun n => do .ok (← getImgId infos n, n)
  | .rows _ => .error .valueError

end Ledsa
