import Verif.Model.Analysis
/-
Model of `postprocessing/simulation.py`. Numbers are rational, arithmetic is exact. A value `none` in a series stands for
NaN (or an infinite value after a division by zero). pandas tables are lists of rows.
-/
namespace Ledsa

/-- `layer_from_height`, /repo/ledsa/postprocessing/simulation.py 89-90; `int` truncates towards zero. The bounds differ
(otherwise `ZeroDivisionError`, not modelled). -/
def layerFromHeight (lo hi : ℚ) (n : ℕ) (h : ℚ) : ℤ := truncZero ((h - lo) / (hi - lo) * n)

/-! ### Smoothing -/

/-- All values of a window, if there is no NaN among them. -/
def allValues : List (Option ℚ) → Option (List ℚ)
  | [] => some []
  | none :: _ => none
  | some x :: l => (allValues l).map (x :: ·)

/-- `rolling(window=w, closed='right').mean()` (or `.median()`), pandas: row `i` aggregates the `w` rows ending with row `i`;
incomplete windows and windows with NaN give NaN. -/
def rolling (agg : List ℚ → ℚ) (w : ℕ) (x : List (Option ℚ)) : List (Option ℚ) :=
  (List.range x.length).map fun i =>
    if i + 1 < w then none else (allValues ((x.drop (i + 1 - w)).take w)).map agg

/-- `shift(s)`, pandas: row `i` gets the value of row `i - s`. -/
def shiftRows (s : ℤ) (x : List (Option ℚ)) : List (Option ℚ) :=
  (List.range x.length).map fun (i : ℕ) => if (i : ℤ) - s < 0 then none else (x[((i : ℤ) - s).toNat]?).join

/-- `_apply_moving_average` for one column, /repo/ledsa/postprocessing/simulation.py 113-119; `agg` is mean or median. -/
def movingAverage (agg : List ℚ → ℚ) (w : ℕ) (x : List (Option ℚ)) : List (Option ℚ) :=
  if w = 1 then x else shiftRows (-((w / 2 : ℕ) : ℤ) + 1) (rolling agg w x)

/-- The mean of a window. -/
def meanQ (l : List ℚ) : ℚ := l.sum / l.length

/-! ### Time -/

/-- `get_closest_time`, /repo/ledsa/postprocessing/simulation.py 129: the first position of the minimal distance; an empty
index raises `ValueError`. -/
def closestOf (t : ℚ) : List ℚ → Option ℚ
  | [] => none
  | x :: xs => match closestOf t xs with
    | none => some x
    | some y => if |x - t| ≤ |y - t| then some x else some y

/-- The times known to the object: the index of the table of coefficients (if read) and the shift of the LED parameters. -/
structure SimTimes where
  extco : Option (List ℤ)
  ledDelta : ℤ

/-- Calls that concern times: `set_timeshift` and reading the coefficients (with the times of the files). -/
inductive SimOp
  | shift (d : ℤ)
  | read

/-- `set_timeshift`, /repo/ledsa/postprocessing/simulation.py 131-140, and `_get_extco_df_from_path` 162-189 (the index
becomes that of the files). -/
def simStep (file : List ℤ) (s : SimTimes) : SimOp → SimTimes
  | .shift d => ⟨s.extco.map fun l => l.map (· + d), d⟩
  | .read => ⟨some file, s.ledDelta⟩

/-- A history of calls on a new object. -/
def simRun (file : List ℤ) (ops : List SimOp) : SimTimes := ops.foldl (simStep file) ⟨none, 0⟩

/-- Times of `get_ledparams_at_led_array`, /repo/ledsa/postprocessing/simulation.py 383. -/
def ledArrayTimes (s : SimTimes) (file : List ℤ) : List ℤ := file.map (· + s.ledDelta)

/-- Times of `get_ledparams_at_led_id`, /repo/ledsa/postprocessing/simulation.py 429: no shift. -/
def ledIdTimes (_ : SimTimes) (file : List ℤ) : List ℤ := file

/-- `get_image_name_from_time`, /repo/ledsa/postprocessing/simulation.py 448: the first image with this time in the image
infos, which are never shifted; no image raises `IndexError`. -/
def imageNameFromTime (infos : List (ℤ × Str)) (t : ℤ) : Except PyErr Str :=
  match infos.find? fun i => i.1 = t with
  | some i => .ok i.2
  | none => .error .indexError

/-! ### LED parameters -/

/-- A row of the table of LED parameters of one channel; `val` is the chosen parameter. -/
structure ParRow where
  time : ℤ
  led : ℕ
  array : ℕ
  val : ℚ
deriving DecidableEq

/-- Division by the mean of the reference values: no finite number if there are none or their mean is zero. -/
def relTo (ref : List ℚ) (v : ℚ) : Option ℚ := if ref = [] ∨ meanQ ref = 0 then none else some (v / meanQ ref)

/-- Number of reference images, /repo/ledsa/postprocessing/simulation.py 385-388 and 431-434: `some 0` is `False` (and 0), for
which absolute values are returned (`none`); no argument selects the number of the configuration. -/
def refNumber (numRef : ℕ) : Option ℕ → Option ℕ
  | some 0 => none
  | some n => some n
  | none => some numRef

/-- The values of an LED in table order. -/
def valuesOf (rows : List ParRow) (led : ℕ) : List ℚ := (rows.filter fun r => r.led = led).map (·.val)

/-- `pivot`, pandas: each pair of time and LED occurs once, otherwise `ValueError`. The result is given as rows (time, LED,
value); pivot does not change values. -/
def pivotRows (l : List (ℤ × ℕ × Option ℚ)) : Except PyErr (List (ℤ × ℕ × Option ℚ)) :=
  if (l.map fun r => (r.1, r.2.1)).Nodup then .ok l else .error .valueError

/-- `get_ledparams_at_led_array` without smoothing, by LED ids, /repo/ledsa/postprocessing/simulation.py 376-395. -/
def ledParamsAtArray (numRef : ℕ) (nRef : Option ℕ) (delta : ℤ) (array : ℕ) (rows : List ParRow) :
    Except PyErr (List (ℤ × ℕ × Option ℚ)) :=
  let ii := rows.filter fun r => r.array = array
  match refNumber numRef nRef with
  | none => pivotRows (ii.map fun r => (r.time + delta, r.led, some r.val))
  | some n => pivotRows (ii.map fun r => (r.time + delta, r.led, relTo ((valuesOf ii r.led).take n) r.val))

/-- `get_ledparams_at_led_id` without smoothing, /repo/ledsa/postprocessing/simulation.py 423-437: rows (time, value). -/
def ledParamsAtId (numRef : ℕ) (nRef : Option ℕ) (led : ℕ) (rows : List ParRow) : List (ℤ × Option ℚ) :=
  let ii := rows.filter fun r => r.led = led
  match refNumber numRef nRef with
  | none => ii.map fun r => (r.time, some r.val)
  | some n => ii.map fun r => (r.time, relTo ((ii.map (·.val)).take n) r.val)

/-! ### Tables of coefficients -/

/-- A table: index, columns, cells by row. -/
structure Frame where
  index : List ℚ
  cols : List ℚ
  cells : List (List ℚ)
deriving DecidableEq

/-- Assignment to `index`: the number of labels has to fit, otherwise `ValueError`. -/
def Frame.setIndex (f : Frame) (labels : List ℚ) : Except PyErr Frame :=
  if labels.length = f.index.length then .ok { f with index := labels } else .error .valueError

/-- `get_extco_at_led_array` without smoothing, /repo/ledsa/postprocessing/simulation.py 280-295: `f` has the times as index
and the layers as columns; `heights` are the heights of the layers if `yaxis='height'`. -/
def extcoAtArray (f : Frame) (heights : Option (List ℚ)) : Except PyErr Frame :=
  match heights with
  | none => .ok f
  | some h => f.setIndex h

/-- `get_extco_at_time`, /repo/ledsa/postprocessing/simulation.py 235-253, after the pivot: `f` has the layers as index and the
LED arrays as columns. -/
def extcoAtTime (f : Frame) (heights : Option (List ℚ)) : Except PyErr Frame :=
  match heights with
  | none => .ok f
  | some h => f.setIndex h

/-- `~index.duplicated(keep='first')`, /repo/ledsa/postprocessing/simulation.py 188-189. -/
def firstOfEachTime {α : Type} : List (ℤ × α) → List ℤ → List (ℤ × α)
  | [], _ => []
  | r :: l, seen => if r.1 ∈ seen then firstOfEachTime l seen else r :: firstOfEachTime l (r.1 :: seen)

/-! ### Files -/

/-- Paths as components; relative paths may go up. -/
inductive Comp
  | up
  | name (s : Str)
deriving DecidableEq

/-- A path argument. -/
structure PathArg where
  absolute : Bool
  comps : List Comp
deriving DecidableEq

/-- One component. -/
def stepInto (p : Path) : Comp → Path
  | .up => p.dropLast
  | .name s => p ++ [s]

/-- The directory a path argument means in a working directory (no symbolic links). -/
def resolve (cwd : Path) (p : PathArg) : Path := p.comps.foldl stepInto (if p.absolute then [] else cwd)

/-- `os.path.join(path, names...)`. -/
def PathArg.join (p : PathArg) (names : List Str) : PathArg := ⟨p.absolute, p.comps ++ names.map .name⟩

/-- The file with the image infos opened by the constructor, /repo/ledsa/postprocessing/simulation.py 51-81: with
configuration the working directory is changed to the path before. -/
def openedInfos (loadConfig : Bool) (cwd : Path) (p : PathArg) (file : Str) : Path :=
  resolve (if loadConfig then resolve cwd p else cwd) (p.join ["analysis".toList, file])

/-- Channels read by the constructor with `read_all`, /repo/ledsa/postprocessing/simulation.py 191-195: a missing file raises
`FileNotFoundError`. -/
def readAllChannels (available : List ℕ) : Except PyErr (List ℕ) :=
  if 0 ∈ available ∧ 1 ∈ available ∧ 2 ∈ available then .ok [0, 1, 2] else .error .fileNotFound

/-- `s.split(pat)` for a non-empty pattern, first part and rest: the text before the first occurrence and the text after
it. -/
def cutAt (pat : Str) : Str → Option (Str × Str)
  | [] => none
  | c :: s =>
    if pat.isPrefixOf (c :: s) then some ([], (c :: s).drop pat.length)
    else match cutAt pat s with
      | some (a, b) => some (c :: a, b)
      | none => none

/-- `s.split(pat)[1]`: the text between the first and the second occurrence; no occurrence raises `IndexError`. -/
def secondPart (pat s : Str) : Except PyErr Str :=
  match cutAt pat s with
  | none => .error .indexError
  | some (_, r) => match cutAt pat r with
    | none => .ok r
    | some (a, _) => .ok a

/-- Channel of a file of coefficients, /repo/ledsa/postprocessing/simulation.py 171. -/
def channelOfFile (file : Str) : Except PyErr Int :=
  match secondPart "channel_".toList file with
  | .error e => .error e
  | .ok r => pyInt ((splitChar '_' r).headD [])

/-- LED array of a file of coefficients, /repo/ledsa/postprocessing/simulation.py 172. -/
def arrayOfFile (file : Str) : Except PyErr Int :=
  match secondPart "array_".toList file with
  | .error e => .error e
  | .ok r => pyInt ((splitChar '.' r).headD [])

/-! ### Configuration and coefficient files -/

/-- `getboolean`, `configparser.py`. -/
def pyBool (s : Str) : Except PyErr Bool :=
  if lower s ∈ ["1".toList, "yes".toList, "true".toList, "on".toList] then .ok true
  else if lower s ∈ ["0".toList, "no".toList, "false".toList, "off".toList] then .ok false
  else .error .valueError

/-- Options of the analysis configuration that decide which files are read, as texts. -/
structure AnaOptions where
  solver : Str
  numRef : Str
  refIdx : Str
  average : Str

/-- Directory of the results of the command line analysis, /repo/ledsa/core/parser_arguments_run.py 204-216 and
/repo/ledsa/analysis/ExtinctionCoefficients.py 140. -/
def solverDir (o : AnaOptions) : Str :=
  match chosenSolver o.solver with
  | .linear => "linear".toList
  | .nonlinear => "nonlinear".toList

/-- Reading the reference images for the analysis, /repo/ledsa/analysis/ExperimentData.py 73-75. -/
def analysisLoads (o : AnaOptions) : Except PyErr Unit :=
  match listOption o.refIdx with
  | some _ => .ok ()
  | none => match pyInt o.numRef with
    | .ok _ => .ok ()
    | .error e => .error e

/-- What post-processing takes from the configuration: the image infos file and the directory with coefficients,
/repo/ledsa/postprocessing/simulation.py 61-64, 78-82 and 167-169. -/
def simLoads (o : AnaOptions) : Except PyErr (Str × Str) :=
  match pyBool o.average with
  | .error e => .error e
  | .ok b => match pyInt o.numRef with
    | .error e => .error e
    | .ok _ => .ok (if b then "image_infos_analysis_avg.csv".toList else "image_infos_analysis.csv".toList, o.solver)

/-- `save`, /repo/ledsa/analysis/ExtinctionCoefficients.py 144-159, as lines of cells: four lines of `__str__` (68-71,
Experiment.py 63-64, 86-87, 164-168; the texts contain no line break), three lines of heights, the column names, one line for
each image. `np.savetxt` puts `# ` in front of the header lines. -/
def coeffFile (about heights : List (List Str)) (layers : ℕ) (rows : List (Str × List Str)) : List (List Str) :=
  (about.take 4 ++ heights.take 3) ++
    (("# Experiment_Time[s]".toList :: (List.range layers).map fun i => "layer".toList ++ natStr i) ::
      rows.map fun r => r.1 :: r.2)

/-- Reading such a file, /repo/ledsa/postprocessing/simulation.py 170-186: skip seven lines, then the column names. The result
is the number of layers and the rows; a file without the time column is completed from the image infos (not modelled,
`none`). -/
def simReadCoeffs (file : List (List Str)) : Option (ℕ × List (Str × List Str)) :=
  match file.drop 7 with
  | [] => none
  | cols :: rows =>
    if cols.head? = some "# Experiment_Time[s]".toList then some (cols.length - 1, rows.map fun r => (r.headD [], r.tail))
    else none

/-! ### Pixels -/

/-- `get_pixel_cordinates_of_LED`, /repo/ledsa/postprocessing/simulation.py 460-463: the row with this position; no row raises
`IndexError`. -/
def pixelCoordinates {P : Type} (table : List (ℕ × P)) (led : ℕ) : Except PyErr P :=
  match table[led]? with
  | some r => .ok r.2
  | none => .error .indexError

/-- Rows and columns of the pixels returned by `get_pixel_values_of_led`, /repo/ledsa/postprocessing/simulation.py 487-498, for
an image with `nx` rows and `ny` columns: `None` for an empty radius; a text cannot be subtracted (`TypeError`). -/
def pixelCrop (nx ny : ℕ) (x y : ℤ) (configRadius : Str) (radius : Option ℤ) :
    Except PyErr (Option (List ℕ × List ℕ)) :=
  match radius with
  | some r => if r = 0 then .ok none else .ok (some ((sliceIdx nx (x - r) (x + r)).reverse, sliceIdx ny (y - r) (y + r)))
  | none => if configRadius = [] then .ok none else .error .typeError

end Ledsa
