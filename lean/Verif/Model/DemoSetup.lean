import Verif.Model.Argv
import Verif.Model.AnalysisConfig
import Verif.Model.Demo
import Verif.Model.Prompts

/-!
# Setting up and running the demo

`/repo/ledsa/demo/demo_setup.py`, `/repo/ledsa/demo/demo_run.py`.

Simplifications: the download itself is taken to succeed; the directory of the images is a map from relative paths to contents
(directories are not represented, a path `a/b` is a file `b` in `a`); names in the archive are relative paths with `/`.
-/

namespace Ledsa

/-! ### Questions -/

/-- `_proceed_prompt`, demo_setup.py 105-125: asks until the answer is `yes` or `no` in any case; `none` while it waits for an
answer. The answers that are left come second. -/
def proceedPrompt : List Str → Option (Bool × List Str)
  | [] => none
  | a :: rest =>
    if lower a = "yes".toList then some (true, rest)
    else if lower a = "no".toList then some (false, rest)
    else proceedPrompt rest

/-- What the setup does. -/
inductive SetupAct
  | makeDirectories
  | downloadAndExtract
  | createConfigFiles
deriving DecidableEq, Repr

/-- How the setup ends: still waiting for an answer, `exit(0)`, or at its end. -/
inductive SetupEnd
  | waiting
  | exited
  | finished
deriving DecidableEq, Repr

/-- The part of `setup_demo` after the questions, demo_setup.py 34-37. -/
def setupWork : List SetupAct := [.makeDirectories, .downloadAndExtract, .createConfigFiles]

/-- `setup_demo`, demo_setup.py 12-39; `done` tells whether `simulation/.simulation_setup_successful` exists. -/
def setupDemo (answers : List Str) (done : Bool) : List SetupAct × SetupEnd :=
  match proceedPrompt answers with
  | none => ([], .waiting)
  | some (false, _) => ([], .exited)
  | some (true, rest) =>
    if done then
      match proceedPrompt rest with
      | none => ([], .waiting)
      | some (false, _) => ([], .exited)
      | some (true, _) => (setupWork, .finished)
    else (setupWork, .finished)

/-! ### The archive -/

/-- Files by relative path. -/
abbrev ImgDir := Str → Option Str

/-- `os.path.basename`: the part after the last `/`. -/
def baseName (p : Str) : Str := (p.reverse.takeWhile (· ≠ '/')).reverse

/-- Writes a file. -/
def ImgDir.put (d : ImgDir) (p content : Str) : ImgDir := fun q => if q = p then some content else d q

/-- Removes a file. -/
def ImgDir.del (d : ImgDir) (p : Str) : ImgDir := fun q => if q = p then none else d q

/-- `os.rename` of a file; an existing file is replaced. -/
def ImgDir.move (d : ImgDir) (p p' : Str) : ImgDir :=
  match d p with
  | none => d
  | some c => (d.del p).put p' c

/-- One member after the first, demo_setup.py 196-199: extracted, then moved into the image directory. A folder cannot be moved
onto the image directory (`OSError`, here `none`). -/
def unpackMember (d : ImgDir) (m : Str × Str) : Option ImgDir :=
  if baseName m.1 = [] then none else some ((d.put m.1 m.2).move m.1 (baseName m.1))

/-- The loop over the members, demo_setup.py 193-199; members are compared by name with the first. -/
def unpackAll (first : Str) : List (Str × Str) → ImgDir → Option ImgDir
  | [], d => some d
  | m :: ms, d =>
    if m.1 ≠ first then
      match unpackMember d m with
      | none => none
      | some d' => unpackAll first ms d'
    else unpackAll first ms d

/-- `shutil.rmtree(..., ignore_errors=True)` of a path in the image directory, demo_setup.py 203: everything below it; nothing
if it is a file. -/
def removeTree (p : Str) (d : ImgDir) : ImgDir :=
  if baseName p = [] then (fun q => if p.isPrefixOf q then none else d q) else d

/-- `_download_and_extract_images`, demo_setup.py 162-206, for the name of the archive, the members of the archive in order, and
the image directory before; `none` if it ends with an exception (an empty archive has no first member). -/
def extractImages (zipName zip : Str) (members : List (Str × Str)) (d : ImgDir) : Option ImgDir :=
  match members with
  | [] => none
  | m :: ms =>
    match unpackAll m.1 (m :: ms) (d.put zipName zip) with
    | none => none
    | some d' => some (removeTree m.1 (d'.del zipName))

/-! ### The configuration files -/

/-- `config.set(section, option, value)` for an option that exists or not; the name is stored in lower case. -/
def setOption (c : Ini) (sec key : Str) (value : List Str) : Ini :=
  c.map fun s =>
    if s.1 = sec then
      (s.1, if key ∈ s.2.map (·.1) then s.2.map (fun i => if i.1 = key then (i.1, some value) else i)
        else s.2 ++ [(key, some value)])
    else s

/-- The keyword arguments for `ConfigData`, demo_setup.py 44-68, as texts; those not given keep their defaults, ConfigData.py
15-20. -/
def demoArgument : Arg → Str
  | .imgDirectory => "../image_data/".toList
  | .imgNameString => "V001_Cam01_{}.CR2".toList
  | .numImgOverflow => "9999".toList
  | .firstImgExperimentId => "1".toList
  | .lastImgExperimentId => "275".toList
  | .numCores => "4".toList
  | .date => "27.11.2018".toList
  | .startTime => "15:36:07".toList
  | .timeRefImgId => "None".toList
  | .timeRefImgFile => "None".toList
  | .timeRefImgTime => "None".toList
  | .timeDiff => "-1".toList
  | .refImgId => "1".toList
  | .percentile => "99.875".toList
  | .channel => "all".toList
  | .searchAreaRadius => "10".toList
  | .maxNumLeds => "1000".toList
  | .numArrays => "7".toList
  | .ignoreLedIndices => "None".toList
  | .edgeIndices => "None".toList
  | .edgeCoordinates => "None".toList
  | .mergeIndices => "None".toList
  | .firstImgAnalysisId => "1".toList
  | .lastImgAnalysisId => "275".toList
  | .numSkipImgs => "0".toList
  | .numSkipLeds => "0".toList

/-- The lines of the edge indices, demo_setup.py 71. -/
def demoEdges : List Str :=
  ["".toList, "   457 246".toList, "    12 347".toList, "    578 671".toList, "    31 535".toList, "    825 838".toList,
   "    198 698".toList, "    965 782".toList, "   ".toList]

/-- The lines of the edge coordinates, demo_setup.py 72-78. -/
def demoCoordinates : List Str :=
  ["".toList, "   6.86 3.13 1.14 5.98 2.83 3.32".toList, "   5.96 2.83 0.99 5.98 2.83 3.35".toList,
   "   5.96 2.83 1.17 5.05 2.62 3.32".toList, "   5.02 2.62 1.0 5.05 2.62 3.34".toList,
   "   4.09 2.38 1.19 5.05 2.62 3.32".toList, "   4.09 2.38 1.0 4.12 2.38 3.35".toList,
   "   3.17 2.25 1.17 4.12 2.38 3.32".toList, "   ".toList]

/-- The configuration of the demo, demo_setup.py 44-80. -/
def demoConfig : Ini :=
  setOption (setOption (setOption (newConfig fun a => [demoArgument a])
    "analyse_positions".toList "   ignore_led_indices".toList ["781 675 746".toList])
    "analyse_positions".toList "   led_array_edge_indices".toList demoEdges)
    "analyse_positions".toList "   led_array_edge_coordinates".toList demoCoordinates

/-- The keyword arguments for `ConfigDataAnalysis`, demo_setup.py 82-93, and the defaults, ConfigDataAnalysis.py 9-14. -/
def demoAnalysisArgument : AKey → Str
  | .numCores => "4".toList
  | .refProperty => "sum_col_val".toList
  | .numRefImages => "10".toList
  | .refImgIndices => "None".toList
  | .cameraChannels => "0".toList
  | .averageImages => "False".toList
  | .solver => "linear".toList
  | .weightPref => "-0.006".toList
  | .weightCurv => "1e-06".toList
  | .numIterations => "200".toList
  | .lambdaReg => "0.001".toList
  | .cameraPosition => "None".toList
  | .ledArrays => "None".toList
  | .numLayers => "20".toList
  | .domainBounds => "None".toList

/-- The analysis configuration of the demo, demo_setup.py 82-100. -/
def demoAnalysisConfig : Ini :=
  setOption (setOption (setOption (setOption (newAnalysisConfig demoAnalysisArgument)
    "experiment_geometry".toList "   camera_position".toList ["7.29 6.46 2.3".toList])
    "DEFAULT".toList "   camera_channels".toList ["0 1 2".toList])
    "model_parameters".toList "   domain_bounds".toList ["0.99 3.35".toList])
    "model_parameters".toList "   led_array_indices".toList ["0 1 2 3 4 5 6".toList]

/-! ### The run -/

/-- The command lines of the demo, demo_run.py 23-30. -/
def demoCommands : List (List Str) :=
  [["-s1".toList], ["-s2".toList], ["-s3_fast".toList, "-rgb".toList], ["-coord".toList], ["--analysis".toList]]

/-- `run_demo` after the edit of the configuration files: the command lines one after the other; an exception ends it. -/
def demoRunActs : List (List Str) → CliRun
  | [] => ([], none)
  | argv :: rest => thenRun (ledsaMain argv true true) (demoRunActs rest)

end Ledsa
