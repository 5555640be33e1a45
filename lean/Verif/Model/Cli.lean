import Verif.Py.Basic
import Verif.Py.Text

/-!
# The command line

`/repo/ledsa/__main__.py` 12-43, `/repo/ledsa/core/parser_arguments_run.py`, `/repo/ledsa/core/parser_arguments_declaration.py`.

A run is the list of actions it carries out, in order, and the exception that ends it, if there is one. Actions are taken to
succeed; if one fails, the run ends with that action. `argparse` is modelled for the option with a default list only.
-/

namespace Ledsa

/-- The parsed options, parser_arguments_declaration.py. `ccChannels` are the occurrences of `--cc_channels` with their
values. -/
structure CliArgs where
  prepareImages : Bool
  config : Option (List Str)
  step1 : Bool
  step2 : Bool
  step3 : Bool
  step3fast : Bool
  restart : Bool
  red : Bool
  green : Bool
  blue : Bool
  rgb : Bool
  coordinates : Bool
  analysis : Bool
  configAnalysis : Bool
  cc : Bool
  ccChannels : List (List Int)
  demo : Bool
  setup : Option Str
  run : Bool
  nCores : Option Int
  acceptance : Bool
  acceptanceDebug : Bool
deriving DecidableEq

/-- What a run does. -/
inductive CliAct
  | rename
  | createConfig (given : List Str)
  | extractor (infos : Bool) (channels : List Nat) (fit : Bool)
  | findAreas
  | matchArrays
  | setupStep3
  | setupRestart
  | process (channels : List Nat) (fit : Bool)
  | coordinates
  | createAnaConfig
  | colourCorrection (channels : List Int)
  | extinction
  | acceptance (debug : Bool)
  | demoSetup (path : Str)
  | demoRun (cores : Int)
deriving DecidableEq, Repr

/-- Actions of a run and how it ends. -/
abbrev CliRun := List CliAct × Option PyErr

/-- One part after the other; an exception ends the run. -/
def thenRun (a b : CliRun) : CliRun :=
  match a.2 with
  | some e => (a.1, some e)
  | none => (a.1 ++ b.1, b.2)

/-- Actions under a condition. -/
def doIf (c : Bool) (acts : List CliAct) : CliRun := (if c then acts else [], none)

/-- `run_tools_arguments`, parser_arguments_run.py 18-28. -/
def runTools (a : CliArgs) : CliRun := doIf a.prepareImages [.rename]

/-- The configuration part, parser_arguments_run.py 38-55: created for up to three values, otherwise looked for. -/
def configPart (a : CliArgs) (hasConfig : Bool) : CliRun :=
  match a.config with
  | some given => doIf (given.length ≤ 3) [.createConfig given]
  | none =>
    if a.step1 || a.step2 || a.step3 || a.step3fast || a.restart || a.red || a.green || a.blue || a.rgb || a.coordinates then
      if hasConfig then ([], none) else ([], some .fileNotFound)
    else ([], none)

/-- The channels, parser_arguments_run.py 57-68. -/
def cliChannels (a : CliArgs) : List Nat :=
  let channels := if a.rgb then [0, 1, 2]
    else (if a.red then [0] else []) ++ (if a.green then [1] else []) ++ (if a.blue then [2] else [])
  if channels.length = 0 then channels ++ [0] else channels

/-- Whether step 3 runs, parser_arguments_run.py 70-71: `and` binds stronger than `or`. -/
def runsStep3 (a : CliArgs) : Bool := a.step3 || (a.red || a.green || a.blue || a.rgb && !a.step3fast)

/-- The steps, parser_arguments_run.py 73-98. -/
def stepsPart (a : CliArgs) : CliRun :=
  thenRun (doIf (a.step1 || a.step2)
    (.extractor false (cliChannels a) true :: ((if a.step1 then [.findAreas] else []) ++ (if a.step2 then [.matchArrays] else []))))
  (thenRun (doIf (runsStep3 a) [.extractor true (cliChannels a) true, .setupStep3, .process (cliChannels a) true])
  (thenRun (doIf a.step3fast [.extractor true (cliChannels a) false, .setupStep3, .process (cliChannels a) false])
  (thenRun (doIf a.restart [.extractor false (cliChannels a) false, .setupRestart, .process (cliChannels a) false])
  (doIf a.coordinates [.coordinates]))))

/-- `run_data_extraction_arguments`, parser_arguments_run.py 31-98. -/
def runExtraction (a : CliArgs) (hasConfig : Bool) : CliRun := thenRun (configPart a hasConfig) (stepsPart a)

/-- `--cc_channels`, parser_arguments_declaration.py 107: action `extend` on a copy of the default. -/
def ccList (given : List (List Int)) : List Int := [0, 1, 2] ++ given.flatten

/-- `run_analysis_arguments`, parser_arguments_run.py 159-178. -/
def runAnalysis (a : CliArgs) (hasAna : Bool) : CliRun :=
  thenRun (if a.configAnalysis then ([CliAct.createAnaConfig], none)
   else if a.analysis || a.cc then (if hasAna then ([], none) else ([], some .fileNotFound))
   else ([], none)) (doIf a.cc [.colourCorrection (ccList a.ccChannels)])

/-- `run_analysis_arguments_with_extinction_coefficient`, parser_arguments_run.py 181-190. -/
def runAnalysisExtinction (a : CliArgs) (hasAna : Bool) : CliRun := thenRun (runAnalysis a hasAna) (doIf a.analysis [.extinction])

/-- `run_testing_arguments`, parser_arguments_run.py 101-115. -/
def runTesting (a : CliArgs) : CliRun :=
  thenRun (doIf a.acceptance [.acceptance false]) (doIf a.acceptanceDebug [.acceptance true])

/-- A value given for an option if it counts as true: an empty path and the number 0 count as not given. -/
def truthy {α : Type} [DecidableEq α] (zero : α) : Option α → Option α
  | some x => if x = zero then none else some x
  | none => none

/-- `run_demo_arguments`, parser_arguments_run.py 118-139; `parser.error` ends the program. -/
def runDemo (a : CliArgs) : CliRun :=
  if truthy [] a.setup = none ∧ a.run = false then ([], some .systemExit)
  else if truthy 0 a.nCores ≠ none ∧ a.run = false then ([], some .systemExit)
  else thenRun (match truthy [] a.setup with
    | some p => ([.demoSetup p], none)
    | none => ([], none)) (doIf a.run [.demoRun ((truthy 0 a.nCores).getD 1)])

/-- `main` after parsing, __main__.py 30-43; the created analysis configuration is there for the second check. -/
def cliMain (a : CliArgs) (hasConfig hasAna : Bool) : CliRun :=
  if a.demo then runDemo a
  else thenRun (runTools a) (thenRun (runExtraction a hasConfig) (thenRun (runAnalysis a hasAna)
    (thenRun (runAnalysisExtinction a (hasAna || a.configAnalysis)) (runTesting a))))

end Ledsa
