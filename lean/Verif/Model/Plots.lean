import Verif.Model.Session
/-
Model of the plots of steps 1 and 2, with which users look up LED ids and check the LED arrays:
`/repo/ledsa/data_extraction/DataExtractor.py` 113-144 and 195-212, `/repo/ledsa/data_extraction/step_1_functions.py` 46-64.
-/
namespace Ledsa

/-- One LED in a plot: centre of its circle `(x, y)`, where its label begins, the label. -/
structure LedMark where
  centre : ℤ × ℤ
  labelAt : ℤ × ℤ
  label : Str
deriving DecidableEq

/-- `add_search_areas_to_plot`, /repo/ledsa/data_extraction/step_1_functions.py 46-64: `x` is the column and `y` the row of the pixel; the label
is the first column of the table. -/
def ledMarks (R : ℤ) (t : LedTable) : List LedMark :=
  t.map fun l => ⟨(l.2.2, l.2.1), (l.2.2 + R, l.2.1 + R / 2), natStr l.1⟩

/-- What `led_search_areas.plot.pdf` and `led_search_areas.plot_reordered.pdf` show: marks and the limits of both axes as handed to
matplotlib. -/
structure AreaPlot where
  marks : List LedMark
  xlim : ℤ × ℤ
  ylim : ℤ × ℤ
deriving DecidableEq

/-- `plot_search_areas`, /repo/ledsa/data_extraction/DataExtractor.py 133-139, once the reference photo is read: `none` for a table without LEDs
(the limits cannot be computed). The photo in the background, colours and fonts are not modelled. -/
def areaPlot (R : ℤ) : LedTable → Option AreaPlot
  | [] => none
  | l :: t => some
    { marks := ledMarks R (l :: t)
      xlim := (t.foldl (fun a k => min a k.2.2) l.2.2 - 5 * R, t.foldl (fun a k => max a k.2.2) l.2.2 + 5 * R)
      ylim := (t.foldl (fun a k => max a k.2.1) l.2.1 + 5 * R, t.foldl (fun a k => min a k.2.1) l.2.1 - 5 * R) }

/-- What `led_arrays.pdf` and `led_arrays_merged.pdf` show: for each array its label and the points `(column, -row)` of its LEDs. -/
abbrev ArrayPlot := List (Str × List (ℤ × ℤ))

/-- `plot_led_arrays`, /repo/ledsa/data_extraction/DataExtractor.py 202-205: the numbers in the arrays are used as row numbers of the table. -/
def arrayPlot (t : LedTable) (arrays : List (List ℕ)) : Except PyErr ArrayPlot :=
  match arrays.zipIdx.mapM fun a => (a.1.mapM fun i => (t[i]?).map fun l => (l.2.2, -l.2.1)).map fun p => ("LED Array ".toList ++ natStr a.2, p) with
  | none => .error .indexError
  | some p => .ok p

/-- The table of LEDs, the flag `.reorder_leds.flag` and the four plots. -/
structure PlotDisk where
  table : Option LedTable
  flag : Bool
  areas : Option AreaPlot
  reordered : Option AreaPlot
  arrays : Option ArrayPlot
  merged : Option ArrayPlot
deriving DecidableEq

/-- A directory before the first run. -/
def PlotDisk.empty : PlotDisk := ⟨none, false, none, none, none, none⟩

/-- Step 1 once it has detected the LEDs `t`, /repo/ledsa/data_extraction/DataExtractor.py 109-111: the table is written, the old plot of
renumbered LEDs is removed (line 120-123), the reference photo is read again (`photo`: it can be read and drawn), the plot is written, the flag
is removed. -/
def plotStep1 (R : ℤ) (photo : Bool) (t : LedTable) (d : PlotDisk) : PlotDisk × Except PyErr Unit :=
  let d1 := { d with table := some t, reordered := none }
  if photo then
    match areaPlot R t with
    | none => (d1, .error .indexError)
    | some p => ({ d1 with areas := some p, flag := false }, .ok ())
  else (d1, .error .fileNotFound)

/-- The plots of the arrays at the end of step 2, /repo/ledsa/data_extraction/DataExtractor.py 172 and 175-177. -/
def plotArrays (groups : Option (List (List ℤ))) (t : LedTable) (arrays : List (List ℕ)) (d : PlotDisk) : PlotDisk × Except PyErr Unit :=
  match arrayPlot t arrays with
  | .error e => (d, .error e)
  | .ok p =>
    let d1 := { d with arrays := some p }
    match groups with
    | none => (d1, .ok ())
    | some g =>
      match arrayPlot t (mergeArrays arrays g) with
      | .error e => (d1, .error e)
      | .ok q => ({ d1 with merged := some q }, .ok ())

/-- Step 2 on a table in memory, /repo/ledsa/data_extraction/DataExtractor.py 161-177, for any rule `find` that assigns LEDs to arrays: the
renumbered table is written, then the plot of it (which reads the reference photo), then the flag is set, then the arrays are plotted. -/
def plotMatch (R : ℤ) (photo : Bool) (find : LedTable → Except PyErr (List (List ℕ))) (groups : Option (List (List ℤ))) (t : LedTable) (d : PlotDisk) :
    PlotDisk × Except PyErr Unit :=
  match find t with
  | .error e => (d, .error e)
  | .ok arrays =>
    match reorderSearchAreas t arrays with
    | .error e => (d, .error e)
    | .ok t' =>
      let d1 := { d with table := some t', reordered := none }
      if photo then
        match areaPlot R t' with
        | none => (d1, .error .valueError)
        | some p => plotArrays groups t' (reorderIndices arrays) { d1 with reordered := some p, flag := true }
      else (d1, .error .fileNotFound)

/-- Step 2 in a session of its own, /repo/ledsa/data_extraction/DataExtractor.py 156-160 (as `runStep2`). -/
def plotStep2 (R : ℤ) (photo : Bool) (find : LedTable → Except PyErr (List (List ℕ))) (groups : Option (List (List ℤ))) (d : PlotDisk) :
    PlotDisk × Except PyErr Unit :=
  if d.flag then (d, .error .systemExit)
  else match d.table with
    | none => (d, .error .fileNotFound)
    | some t => if t.length ≤ 1 then (d, .error .indexError) else plotMatch R photo find groups t d

/-- `--step_1 --step_2` in one session, /repo/ledsa/core/parser_arguments_run.py 73-78. -/
def plotSteps12 (R : ℤ) (photo : Bool) (find : LedTable → Except PyErr (List (List ℕ))) (groups : Option (List (List ℤ))) (t : LedTable) (d : PlotDisk) :
    PlotDisk × Except PyErr Unit :=
  match plotStep1 R photo t d with
  | (d1, .error e) => (d1, .error e)
  | (d1, .ok ()) => if d1.flag then (d1, .error .systemExit) else plotMatch R photo find groups t d1

/-- One call of the program. -/
inductive PlotCall
  | step1 (photo : Bool) (t : LedTable)
  | step2 (photo : Bool) (find : LedTable → Except PyErr (List (List ℕ))) (groups : Option (List (List ℤ)))
  | both (photo : Bool) (find : LedTable → Except PyErr (List (List ℕ))) (groups : Option (List (List ℤ))) (t : LedTable)

/-- The reference photo could be read and drawn. -/
def PlotCall.photo : PlotCall → Bool
  | .step1 b _ => b
  | .step2 b _ _ => b
  | .both b _ _ _ => b

/-- What a call does. -/
def PlotCall.run (R : ℤ) (d : PlotDisk) : PlotCall → PlotDisk × Except PyErr Unit
  | .step1 b t => plotStep1 R b t d
  | .step2 b f g => plotStep2 R b f g d
  | .both b f g t => plotSteps12 R b f g t d

/-- What a series of calls leaves; an exception ends the call, not the series. -/
def plotRuns (R : ℤ) (calls : List PlotCall) : PlotDisk := calls.foldl (fun d c => (c.run R d).1) PlotDisk.empty

end Ledsa
