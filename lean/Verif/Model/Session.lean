import Verif.Model.Extraction
/-
Model of whole invocations of the data extraction: steps 1, 2 and 3 as programs on the files that connect them,
`/repo/ledsa/data_extraction/DataExtractor.py` and `/repo/ledsa/core/parser_arguments_run.py` 73-88.
-/
namespace Ledsa

/-- The files that connect the steps: `led_search_areas.csv`, the flag `.reorder_leds.flag`, the index files of the LED arrays. -/
structure ExtDisk where
  areas : Option Str
  flag : Bool
  index : Str → Option Str

/-- A directory before the first run. -/
def ExtDisk.empty : ExtDisk := ⟨none, false, fun _ => none⟩

/-- A table of LEDs: id, row, column. -/
abbrev LedTable := List (ℕ × ℤ × ℤ)

/-- What step 1 reads: reference image, threshold, radius and limit. -/
structure Step1Job where
  img : Image ℚ
  thr : ℚ
  radius : ℕ
  maxLeds : ℕ

/-- What step 1 finds, /repo/ledsa/data_extraction/DataExtractor.py 108. -/
def Step1Job.table (maxLoc : Image ℚ → ℕ × ℕ) (j : Step1Job) : LedTable :=
  (findSearchAreas maxLoc j.thr j.radius j.maxLeds j.img).map fun l => (l.1, (l.2.1 : ℤ), (l.2.2 : ℤ))

/-- The options of step 2: `led_array_edge_indices`, `ignore_led_indices`, and the parsed `merge_led_array_indices` (`none` for
`None`). -/
structure Step2Options where
  edges : Str
  ignore : Str
  groups : Option (List (List ℤ))

/-- The options of step 3: `num_arrays` and the merge configuration. -/
structure Step3Options where
  numArrays : ℤ
  groups : Option (List (List ℤ))

/-- The text written by `write_search_areas`. -/
def tableText (reordered : Bool) (t : LedTable) : Str := areasText reordered (t.map fun l => ((l.1 : ℤ), l.2))

/-- `load_search_areas`: ids are not negative in files written by the program. -/
def loadTable (text : Str) : Except PyErr LedTable := (loadAreas text).map fun rows => rows.map fun a => (a.1.toNat, a.2)

section
variable {D : Type} [LinearOrder D] [Add D] [Mul D]

/-- How step 2 measures distances, the number of neighbours and the weight, /repo/ledsa/data_extraction/step_2_functions.py
10-11. -/
structure Metric (D : Type) where
  dist : ℤ × ℤ → ℤ × ℤ → D
  neighbours : ℕ
  weight : D

/-- The LED arrays of a table, `match_leds_to_led_arrays`, /repo/ledsa/data_extraction/step_2_functions.py 8-107. -/
def arraysOf (m : Metric D) (o : Step2Options) (t : LedTable) : Except PyErr (List (List ℕ)) :=
  (matchLeds m.dist m.neighbours m.weight (edgeIndices o.edges) o.ignore t).map (·.1)

/-- Step 1, `find_search_areas`, /repo/ledsa/data_extraction/DataExtractor.py 108-111: the table is written, then plotted (which
raises `IndexError` for an empty table, an array of one dimension), then the flag is removed. -/
def runStep1 (t : LedTable) (d : ExtDisk) : ExtDisk × Except PyErr Unit :=
  let d1 := { d with areas := some (tableText false t) }
  if t = [] then (d1, .error .indexError) else ({ d1 with flag := false }, .ok ())

/-- Step 2 after the flag was checked, for a table in memory, `match_leds_to_led_arrays`,
/repo/ledsa/data_extraction/DataExtractor.py 161-177: match, reorder, write the table, plot (`ValueError` for the minimum of an
empty table), set the flag, write the index files, then those of the merged arrays. -/
def matchTable (m : Metric D) (o : Step2Options) (t : LedTable) (d : ExtDisk) : ExtDisk × Except PyErr Unit :=
  match arraysOf m o t with
  | .error e => (d, .error e)
  | .ok arrays =>
    match reorderSearchAreas t arrays with
    | .error e => (d, .error e)
    | .ok t' =>
      let d1 := { d with areas := some (tableText true t') }
      if t' = [] then (d1, .error .valueError)
      else ({ d1 with flag := true, index := step2Files arrays o.groups d.index }, .ok ())

/-- Step 2 in a session of its own, /repo/ledsa/data_extraction/DataExtractor.py 156-160: with the flag the program ends; the
table is loaded. A table of one LED is loaded as an array of one dimension, whose rows cannot be indexed
(/repo/ledsa/data_extraction/step_2_functions.py 33); an empty one fails at line 48 or at line 373. -/
def runStep2 (m : Metric D) (o : Step2Options) (d : ExtDisk) : ExtDisk × Except PyErr Unit :=
  if d.flag then (d, .error .systemExit)
  else match d.areas with
    | none => (d, .error .fileNotFound)
    | some text =>
      match loadTable text with
      | .error e => (d, .error e)
      | .ok t => if t.length ≤ 1 then (d, .error .indexError) else matchTable m o t d

/-- `--step_1 --step_2`: one session, /repo/ledsa/core/parser_arguments_run.py 73-78. An exception of step 1 ends it. -/
def runSteps12 (m : Metric D) (o : Step2Options) (t : LedTable) (d : ExtDisk) : ExtDisk × Except PyErr Unit :=
  match runStep1 t d with
  | (d1, .error e) => (d1, .error e)
  | (d1, .ok ()) => if d1.flag then (d1, .error .systemExit) else matchTable m o t d1

/-- The search areas and LED arrays of step 3, always a new session: /repo/ledsa/core/parser_arguments_run.py 80-88,
/repo/ledsa/data_extraction/DataExtractor.py 226-229. -/
def step3Input (o : Step3Options) (d : ExtDisk) : Except PyErr (LedTable × List (List ℤ)) := do
  let text ← match d.areas with
    | none => .error .fileNotFound
    | some text => .ok text
  let t ← loadTable text
  let arrays ← loadArrays o.numArrays o.groups d.index
  .ok (t, arrays)

/-- The values of step 3 for one photo, /repo/ledsa/data_extraction/step_3_functions.py 50-58, 137-139: a table of at most one LED
has one dimension only. LED ids are not negative in files written by the program. -/
def step3Rows (o : Step3Options) (photo : Image ℚ) (radius : ℕ) (fit : Bool) (skip : ℕ) (d : ExtDisk) :
    Except PyErr (List (ℕ × ℕ × Measured ℚ)) := do
  let (t, arrays) ← step3Input o d
  if t.length ≤ 1 then .error .indexError
  else imageRows photo (t.map (·.2)) radius fit skip (arrays.map fun a => a.map Int.toNat)

/-- The result file of step 3 for one photo, a new session as `step3Rows`, /repo/ledsa/data_extraction/DataExtractor.py 245-258. -/
def step3File (o : Step3Options) (infos : List Str) (root : Str) (channel radius skip : ℕ) (photo : Image ℚ) (fit : Option (ℕ → FitValues))
    (imgId : Str) (d : ExtDisk) : Except PyErr Str := do
  let (t, arrays) ← step3Input o d
  if t.length ≤ 1 then .error .indexError
  else step3Text infos root channel (t.map (·.2)) radius skip (arrays.map fun a => a.map Int.toNat) photo fit imgId

/-- Invocations of the program. (Step 3 does not change the files that connect the steps.) -/
inductive ExtCmd
  | step1 (j : Step1Job)
  | step2 (o : Step2Options)
  | steps12 (j : Step1Job) (o : Step2Options)

/-- Effect of an invocation, whether it ends with an exception or not. -/
def ExtCmd.run (maxLoc : Image ℚ → ℕ × ℕ) (m : Metric D) (d : ExtDisk) : ExtCmd → ExtDisk
  | .step1 j => (runStep1 (j.table maxLoc) d).1
  | .step2 o => (runStep2 m o d).1
  | .steps12 j o => (runSteps12 m o (j.table maxLoc) d).1

/-- Effect of a history of invocations. -/
def runHistory (maxLoc : Image ℚ → ℕ × ℕ) (m : Metric D) (d : ExtDisk) (h : List ExtCmd) : ExtDisk :=
  h.foldl (ExtCmd.run maxLoc m) d

end

end Ledsa
