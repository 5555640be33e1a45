import Verif.Model.DemoSetup

/-!
# Setting up the demo in single steps

`/repo/ledsa/demo/demo_setup.py` 34-37 and 162-206, so that the setup can be stopped (by the user, a lost connection, a full disk) between
any two steps. Files grow character by character. Simplifications: removing the folder of the archive is one step; a configuration file is
there or not.
-/

namespace Ledsa

/-- What the setup leaves: image directory, the file `.simulation_setup_successful`, the two configuration files. -/
structure SetupDisk where
  images : ImgDir
  marker : Bool
  config : Bool
  analysis : Bool

/-- One step. -/
inductive SetupStep
  | create (p : Str)
  | append (p : Str) (c : Char)
  | move (p p' : Str)
  | delete (p : Str)
  | removeTree (p : Str)
  | mark
  | config
  | analysis

/-- Effect of a step. -/
def SetupStep.run (d : SetupDisk) : SetupStep → SetupDisk
  | .create p => { d with images := d.images.put p [] }
  | .append p c => { d with images := d.images.put p ((d.images p).getD [] ++ [c]) }
  | .move p p' => { d with images := d.images.move p p' }
  | .delete p => { d with images := d.images.del p }
  | .removeTree p => { d with images := Ledsa.removeTree p d.images }
  | .mark => { d with marker := true }
  | .config => { d with config := true }
  | .analysis => { d with analysis := true }

/-- Writing a file: it is created empty and grows. -/
def writeSteps (p content : Str) : List SetupStep := .create p :: content.map (.append p)

/-- The steps for a member, demo_setup.py 196-199. -/
def memberSteps (first : Str) (m : Str × Str) : List SetupStep :=
  if m.1 ≠ first then writeSteps m.1 m.2 ++ [.move m.1 (baseName m.1)] else []

/-- `_download_and_extract_images` and `_create_config_files`, demo_setup.py 35-36, 162-206 and 41-102: download, extraction, removal of
the archive and its folder, marker, configuration files. -/
def setupSteps (zipName zip first : Str) (members : List (Str × Str)) : List SetupStep :=
  writeSteps zipName zip ++ members.flatMap (memberSteps first) ++ [.delete zipName, .removeTree first, .mark, .config, .analysis]

/-- A setup that is stopped after some of its steps. -/
def runSetup (steps : List SetupStep) (d : SetupDisk) : SetupDisk := steps.foldl SetupStep.run d

end Ledsa
