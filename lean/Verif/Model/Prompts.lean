import Verif.Py.Text
import Verif.Model.Time
import Verif.Model.Ini
/-
Model of the dialogue that completes a loaded configuration, and of the clock offset from the time reference image.
A configuration is a partial map from the options involved to their texts (`none`: the option does not exist).
Reading image metadata and building paths are parameters; they may fail in any way. Printing and warnings are left out.
-/
namespace Ledsa

/-- The options involved. -/
inductive Key
  | imgDir | imgName | timeRefId | timeRefFile | timeRefTime | date | exifDiff | refImg | maxLeds | firstExp | lastExp
  | numArrays
deriving DecidableEq, Repr

/-- Section and name of the options, /repo/ledsa/data_extraction/init_functions.py 37-69. -/
def keyName : Key → Str × Str
  | .imgDir => ("DEFAULT".toList, "img_directory".toList)
  | .imgName => ("DEFAULT".toList, "img_name_string".toList)
  | .timeRefId => ("DEFAULT".toList, "time_ref_img_id".toList)
  | .timeRefFile => ("DEFAULT".toList, "time_ref_img_file".toList)
  | .timeRefTime => ("DEFAULT".toList, "time_ref_img_time".toList)
  | .date => ("DEFAULT".toList, "date".toList)
  | .exifDiff => ("DEFAULT".toList, "exif_time_infront_real_time".toList)
  | .refImg => ("find_search_areas".toList, "ref_img_id".toList)
  | .maxLeds => ("find_search_areas".toList, "max_num_leds".toList)
  | .firstExp => ("DEFAULT".toList, "first_img_experiment_id".toList)
  | .lastExp => ("DEFAULT".toList, "last_img_experiment_id".toList)
  | .numArrays => ("analyse_positions".toList, "num_arrays".toList)

/-- The options as seen by `config[section][option]`. -/
abbrev Cfg := Key → Option Str

/-- The options of a loaded file. Options with several lines or without value do not occur among those modelled. -/
def cfgOf (c : Ini) : Cfg := fun k =>
  match lookup c (keyName k).1 (keyName k).2 with
  | some (some [x]) => some x
  | _ => none

/-- The text of an unset option. -/
def noneText : Str := "None".toList

/-- The world of the dialogue: the configuration in memory, the file, the questions asked so far. -/
structure PWorld where
  cfg : Cfg
  file : Cfg
  asked : List Key

/-- Result: the world, and the exception if one was raised. -/
abbrev PRes := PWorld × Option PyErr

/-- Sequence of two parts of the program. -/
def PRes.andThen (r : PRes) (f : PWorld → PRes) : PRes :=
  match r.2 with
  | none => f r.1
  | some _ => r

/-- What the dialogue needs from outside: path of the image with an id (`os.path.join`, `str.format`, `os.path.abspath`;
/repo/ledsa/core/ConfigData.py 312-315), absolute path of a file (318), EXIF entry of a file (341). -/
structure PEnv where
  pathOfId : Str → Str → Str → Except PyErr Str
  absPath : Str → Str
  exif : Str → Except PyErr Str

/-- `self[section][option] = text`: texts with a single percent sign are rejected. -/
def setKey (k : Key) (v : Str) (w : PWorld) : PRes :=
  if percentOk v then ({ w with cfg := fun j => if j = k then some v else w.cfg j }, none) else (w, some .valueError)

/-- `self[section][option] = input(...)`, /repo/ledsa/core/ConfigData.py 242-293. -/
def askFor (ans : Key → Str) (k : Key) (w : PWorld) : PRes :=
  setKey k (ans k) { w with asked := w.asked ++ [k] }

/-- `save`, /repo/ledsa/core/ConfigData.py 183-189. -/
def saveCfg (w : PWorld) : PRes := ({ w with file := w.cfg }, none)

/-- `if config[section][option] == 'None': ask; save`, /repo/ledsa/data_extraction/init_functions.py 37-42, 56-69. -/
def stepDirect (ans : Key → Str) (k : Key) (w : PWorld) : PRes :=
  match w.cfg k with
  | none => (w, some .keyError)
  | some v => if v = noneText then (askFor ans k w).andThen saveCfg else (w, none)

/-- `config.get(section, option)` with fallback, /repo/ledsa/core/ConfigData.py 156-168. -/
def getOrNone (c : Cfg) (k : Key) : Str := (c k).getD noneText

/-- The two questions for the time reference image, /repo/ledsa/data_extraction/init_functions.py 43-52. -/
def stepTimeRef (ans : Key → Str) (k : Key) (w : PWorld) : PRes :=
  if getOrNone w.cfg .timeRefId = noneText ∧ getOrNone w.cfg .timeRefFile = noneText then
    match w.cfg .exifDiff with
    | none => (w, some .keyError)
    | some v => if v = noneText then (askFor ans k w).andThen saveCfg else (w, none)
  else (w, none)

/-- Path of the time reference image, /repo/ledsa/core/ConfigData.py 302-331. The path from the id is computed (and may
fail) even if the file is given. -/
def timeRefPath (env : PEnv) (c : Cfg) : Except PyErr Str :=
  match c .timeRefId, c .timeRefFile with
  | some id, some file =>
    if id = noneText ∧ file = noneText then .error .valueError
    else if id = noneText then .ok (env.absPath file)
    else match c .imgDir, c .imgName with
      | some dir, some name =>
        match env.pathOfId dir name id with
        | .error e => .error e
        | .ok p => if file = noneText then .ok p else .ok (env.absPath file)
      | _, _ => .error .keyError
  | _, _ => .error .keyError

/-- The question for the time on the clock, /repo/ledsa/core/ConfigData.py 335-338. -/
def askClock (ans : Key → Str) (w : PWorld) : PRes :=
  match w.cfg .timeRefTime with
  | none => (w, some .keyError)
  | some v => if v = noneText then askFor ans .timeRefTime w else (w, none)

/-- The offset from EXIF entry and clock, /repo/ledsa/core/ConfigData.py 340-347. -/
def storeOffset (env : PEnv) (p : Str) (w : PWorld) : PRes :=
  match w.cfg .timeRefTime with
  | none => (w, some .keyError)
  | some time =>
    match env.exif p with
    | .error e => (w, some e)
    | .ok entry =>
      match splitChar ' ' entry with
      | [date, timeMeta] => (setKey .date date w).andThen fun w =>
        match getDatetimeFromStr date timeMeta with
        | .error e => (w, some e)
        | .ok img => match getDatetimeFromStr date time with
          | .error e => (w, some e)
          | .ok real => setKey .exifDiff (intStr (img - real)) w
      | _ => (w, some .valueError)

/-- `in_time_diff_to_img_time`, /repo/ledsa/core/ConfigData.py 295-347. -/
def timeDiff (env : PEnv) (ans : Key → Str) (w : PWorld) : PRes :=
  match timeRefPath env w.cfg with
  | .error e => (w, some e)
  | .ok p => (askClock ans w).andThen (storeOffset env p)

/-- The offset is determined if it is unset, /repo/ledsa/data_extraction/init_functions.py 53-55. -/
def stepOffset (env : PEnv) (ans : Key → Str) (w : PWorld) : PRes :=
  match w.cfg .exifDiff with
  | none => (w, some .keyError)
  | some v => if v = noneText then (timeDiff env ans w).andThen saveCfg else (w, none)

/-- The questions after the offset, in order. -/
def lateKeys : List Key := [.refImg, .maxLeds, .firstExp, .lastExp, .numArrays]

/-- A list of simple questions. -/
def stepsDirect (ans : Key → Str) : List Key → PWorld → PRes
  | [], w => (w, none)
  | k :: ks, w => (stepDirect ans k w).andThen (stepsDirect ans ks)

/-- `request_config_parameters`, /repo/ledsa/data_extraction/init_functions.py 30-69. -/
def requestConfig (env : PEnv) (ans : Key → Str) (w : PWorld) : PRes :=
  (stepsDirect ans [.imgDir, .imgName] w).andThen fun w =>
  (stepTimeRef ans .timeRefId w).andThen fun w =>
  (stepTimeRef ans .timeRefFile w).andThen fun w =>
  (stepOffset env ans w).andThen (stepsDirect ans lateKeys)

/-- `load` in a new run of the program: white space around values is lost (`C55_round_trip`). -/
def reloadCfg (c : Cfg) : Cfg := fun k => (c k).map strip

end Ledsa
