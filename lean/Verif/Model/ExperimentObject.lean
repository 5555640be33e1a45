import Verif.Model.Binary
import Verif.Model.Step2
import Verif.Model.AnalysisConfig

/-!
# The experiment object of the analysis

`/repo/ledsa/analysis/Experiment.py` 134-162 and 273-313, the start of `calc_distance_array`
(`/repo/ledsa/analysis/ExtinctionCoefficients.py` 168), and what happens without `config.ini`
(`/repo/ledsa/core/ConfigData.py` 170-181, `/repo/ledsa/analysis/ExperimentData.py` 106).

Text files are lists of rows of numbers, as in `Model/Binary`; `none` is a missing file.
-/

namespace Ledsa

/-- The argument `merge_led_arrays`: the analysis command passes the text of the option, a program may pass a truth value. -/
inductive MergeArg
  | text (s : Str)
  | bool (b : Bool)
deriving DecidableEq

/-- The default value of the argument, Experiment.py 135. -/
def MergeArg.default : MergeArg := .bool false

/-- `'_merge' if self.merge_led_arrays != 'None' else ''`, Experiment.py 292. -/
def mergeSuffix (a : MergeArg) : Str := if a ≠ .text "None".toList then "_merge".toList else []

/-- What is in the directory `analysis`: files by their name. -/
abbrev AnalysisDir := Str → Option (List (List ℚ))

/-- `led_search_areas_with_coordinates.csv`. -/
def coordinatesName : Str := "led_search_areas_with_coordinates.csv".toList

/-- The attributes `leds` and `num_leds`. -/
structure ExperimentLeds where
  leds : List (ℕ × ℚ × ℚ × ℚ)
  num : Option ℕ
deriving DecidableEq

/-- `set_leds`, Experiment.py 273-313, with the files: the file of the ids is read first. -/
def setLedsFrom (dir : AnalysisDir) (array : ℕ) (merge : MergeArg) : Except PyErr (List (ℕ × ℚ × ℚ × ℚ)) :=
  match dir (indexFileName array (mergeSuffix merge)) with
  | none => .error .fileNotFound
  | some ids => match dir coordinatesName with
    | none => .error .fileNotFound
    | some rows => setLeds ids rows

/-- `Experiment.__init__`, Experiment.py 150-162: an `IOError` is printed and forgotten. -/
def newExperiment (dir : AnalysisDir) (array : ℕ) (merge : MergeArg) : Except PyErr ExperimentLeds :=
  match setLedsFrom dir array merge with
  | .ok l => .ok ⟨l, some l.length⟩
  | .error .fileNotFound => .ok ⟨[], none⟩
  | .error e => .error e

/-- `calc_distance_array`, ExtinctionCoefficients.py 161-175: `np.zeros((None, n))` raises `TypeError`. -/
def distancesOf {D : Type} (dist : ℚ × ℚ × ℚ → D) (e : ExperimentLeds) : Except PyErr (List D) :=
  match e.num with
  | none => .error .typeError
  | some _ => .ok (e.leds.reverse.map fun l => dist l.2)

/-- `str(self.config['analyse_positions']['merge_led_array_indices'])` of a loaded `config.ini`, ExperimentData.py 106; `none` for a
missing file or option. `load` prints that the file is missing, and that it was loaded, ConfigData.py 177-181. -/
def mergeOption (config : Option (Option Str)) : Except PyErr MergeArg :=
  match config with
  | some (some v) => .ok (.text v)
  | _ => .error .keyError

/-- `ExperimentData()` including its last line, /repo/ledsa/analysis/ExperimentData.py 46-106. -/
def loadExperimentData {F : Type} (float : Str → Except PyErr F) (ans : List AKey → AKey → Str) (config : Option (Option Str)) :
    AProg (ASettings F × MergeArg) :=
  (loadParameters float ans).andThen fun s => (AProg.pure (mergeOption config)).andThen fun m => .pure (.ok (s, m))

end Ledsa
