import Verif.Model.Ini
import Verif.Model.Step2
import Verif.Model.Prompts
/-
Model of the questions for the ends of the LED arrays: their LED numbers in step 2 and their room coordinates in the calculation of the positions,
over several runs with one configuration file. Values are given by their lines. A value is written and loaded as described in `Model/Ini.lean`; lines
that begin with a comment sign are not modelled. Conversion of texts to floats is a parameter.
-/
namespace Ledsa

/-- The three options of section `analyse_positions` in `config.ini` as loaded. -/
structure EdgeCfg where
  num : Str
  edges : List Str
  coords : List Str
deriving DecidableEq

/-- A value after writing and loading: lines stripped, empty lines at the end dropped; `_join_multiline_values` and `_read` of `configparser.py`. -/
def reloaded (value : List Str) : List Str := joinLines (value.map strip).reverse

/-- `in_led_array_edge_indices` and `in_led_array_edge_coordinates`, /repo/ledsa/core/ConfigData.py 377-407: the value assigned; `ans i` is the line
entered for array `i`. A single percent sign raises `ValueError`. -/
def askEnds (num : Str) (ans : ℕ → Str) : Except PyErr (List Str) :=
  match pyInt num with
  | .error e => .error e
  | .ok n =>
    let lines := (List.range n.toNat).map ans
    if lines.all percentOk then .ok (promptLines lines) else .error .valueError

/-- `get2dnparray` with a number of columns and a conversion, /repo/ledsa/core/ConfigData.py 206-221. -/
def get2dBy {α : Type} (conv : Str → Except PyErr α) (n : ℕ) (value : List Str) : Except PyErr (Option (List (List α))) :=
  if value = ["None".toList] then .ok none
  else match (value.flatMap splitWs).mapM conv with
    | .ok l => .ok (some (rowsOf n l))
    | .error e => .error e

/-- `_get_indices_of_outer_leds` on a value, /repo/ledsa/data_extraction/step_2_functions.py 221-232: an exception yields no arrays; so does `None`,
which has no `shape`. -/
def outerLeds (value : List Str) : List (List ℤ) :=
  match get2dBy pyInt 2 value with
  | .ok (some rows) => rows
  | _ => []

/-- Result of a run: the file afterwards, the number of questions asked, the rows used. -/
structure EdgeRes (α : Type) where
  cfg : EdgeCfg
  asked : ℕ
  used : Except PyErr (List (List α))
deriving DecidableEq

/-- `_get_indices_of_outer_leds`, /repo/ledsa/data_extraction/step_2_functions.py 206-232, in a run that loaded the file `c`. The value in memory is the
one assigned, the file is written before the value is read. -/
def step2Ends (ans : ℕ → Str) (c : EdgeCfg) : EdgeRes ℤ :=
  if c.edges = ["None".toList] then
    match askEnds c.num ans with
    | .error _ => ⟨c, match pyInt c.num with | .ok n => n.toNat | .error _ => 0, .ok []⟩
    | .ok v => ⟨{ c with edges := reloaded v }, match pyInt c.num with | .ok n => n.toNat | .error _ => 0, .ok (outerLeds v)⟩
  else ⟨c, 0, .ok (outerLeds c.edges)⟩

/-- The rows of coordinates, /repo/ledsa/ledpositions/coordinates.py 86: for `None` the access in line 98 raises `TypeError`. -/
def endCoords {α : Type} (float : Str → Except PyErr α) (value : List Str) : Except PyErr (List (List α)) :=
  match get2dBy float 6 value with
  | .ok (some rows) => .ok rows
  | .ok none => .error .typeError
  | .error e => .error e

/-- The questions of `_calculate_3d_coordinates`, /repo/ledsa/ledpositions/coordinates.py 79-86, in a run that loaded the file `c`. -/
def coordEnds {α : Type} (float : Str → Except PyErr α) (ans : ℕ → Str) (c : EdgeCfg) : EdgeRes α :=
  if c.coords = ["None".toList] then
    match askEnds c.num ans with
    | .error e => ⟨c, match pyInt c.num with | .ok n => n.toNat | .error _ => 0, .error e⟩
    | .ok v => ⟨{ c with coords := reloaded v }, match pyInt c.num with | .ok n => n.toNat | .error _ => 0, endCoords float v⟩
  else ⟨c, 0, endCoords float c.coords⟩

/-- A run of one of the two parts; `ans` is what would be entered if asked. -/
inductive EdgeRun
  | step2 (ans : ℕ → Str)
  | positions (ans : ℕ → Str)

/-- The file after a run. -/
def EdgeRun.after {α : Type} (float : Str → Except PyErr α) (c : EdgeCfg) : EdgeRun → EdgeCfg
  | .step2 ans => (step2Ends ans c).cfg
  | .positions ans => (coordEnds float ans c).cfg

/-- The file after any number of runs. -/
def afterRuns {α : Type} (float : Str → Except PyErr α) (c : EdgeCfg) (runs : List EdgeRun) : EdgeCfg :=
  runs.foldl (EdgeRun.after float) c

end Ledsa
