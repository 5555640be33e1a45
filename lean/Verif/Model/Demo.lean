import Mathlib.Data.List.Infix
import Verif.Model.Ini
import Verif.Py.Text

/-!
# The demo: editing configuration files and the number of cores

`/repo/ledsa/demo/demo_setup.py` 209-252, `/repo/ledsa/demo/demo_run.py` 5-29, `/repo/ledsa/core/parser_arguments_run.py`
118-139.

Simplifications: files are texts with `\n` at the end of lines (universal newlines are not modelled); `str(target_value)` is
given as a text; the steps that the demo runs after the edit are not part of this file, only the number of cores they read.
-/

namespace Ledsa

/-- `file.readlines()`: the lines with their line ends, /repo/ledsa/demo/demo_setup.py 238. -/
def readlines : Str → List Str
  | [] => []
  | c :: t =>
    if c = '\n' then ['\n'] :: readlines t
    else match readlines t with
      | [] => [[c]]
      | l :: ls => (c :: l) :: ls

/-- One line of `_replace_params_in_file`, /repo/ledsa/demo/demo_setup.py 243-248; `line.split('=')[0]` is the text before the
first `=`. -/
def replaceLine (word value line : Str) : Str :=
  if word <:+: line ∧ '=' ∈ line then line.takeWhile (· ≠ '=') ++ "=".toList ++ " ".toList ++ value ++ "\n".toList else line

/-- `_replace_params_in_file`, /repo/ledsa/demo/demo_setup.py 225-252, on the text of the file. -/
def replaceParams (word value text : Str) : Str := ((readlines text).map (replaceLine word value)).flatten

/-- The text of a file with the given lines. -/
def unlines (ls : List Str) : Str := ls.flatMap (· ++ ['\n'])

/-- The lines of a text without their line ends, as `ConfigParser` sees them. -/
def linesOf (text : Str) : List Str := (readlines text).map fun l => l.filter (· ≠ '\n')

/-- `run_demo`, /repo/ledsa/demo/demo_run.py 19-21 with `_edit_config_files`, demo_setup.py 209-221, on the text of either
configuration file. -/
def demoEdit (numCores : Nat) (text : Str) : Str :=
  if numCores ≠ 1 then replaceParams "num_cores".toList (natStr numCores) text else text

/-- `run_demo_arguments`, /repo/ledsa/core/parser_arguments_run.py 134-139: the number handed to `run_demo`. -/
def demoCores (nCores : Option Nat) : Nat :=
  match nCores with
  | some k => if k ≠ 0 then k else 1
  | none => 1

/-- `int(config['num_cores'])`, /repo/ledsa/data_extraction/DataExtractor.py 232 (section `analyse_photo`) and
/repo/ledsa/analysis/ExperimentData.py 105 (section `DEFAULT`). -/
def coresOf (c : Ini) (sec : Str) : Except PyErr Int :=
  match lookup c sec "num_cores".toList with
  | none => .error .keyError
  | some none => .error .typeError
  | some (some ls) => pyInt (joinChar '\n' ls)

/-- The number of processes that work, DataExtractor.py 233-243. -/
def poolSize (n : Int) : Int := if n > 1 then n else 1

/-- The number of cores used by a run of the demo, from the text of a configuration file. -/
def demoUses (nCores : Option Nat) (sec : Str) (text : Str) : Except PyErr Int :=
  match readIni (linesOf (demoEdit (demoCores nCores) text)) with
  | .error e => .error e
  | .ok c => match coresOf c sec with
    | .error e => .error e
    | .ok n => .ok (poolSize n)

end Ledsa
