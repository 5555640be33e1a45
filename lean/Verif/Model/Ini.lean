import Verif.Py.Text
import Verif.Model.Analysis
/-
Model of the configuration files: `configparser.ConfigParser(allow_no_value=True)` of the Python standard library (3.11)
as far as `ConfigData` uses it, and the contents of a new configuration. A value is represented by its lines, a file by its
lines; `\r` does not occur in values. Interpolation is the identity for values without `%`, other values are not modelled
beyond `percentOk`. Errors of configparser are `configError`.
-/
namespace Ledsa

/-- An item of a section in memory: the key as written in the file, and the lines of the value (`none`: no value). -/
abbrev IniItem := Str × Option (List Str)

/-- Sections in order, `DEFAULT` first. -/
abbrev Ini := List (Str × List IniItem)

/-- `_write_section` for one item, `configparser.py`: `key = value`, where continuation lines get a tab. -/
def writeItem : IniItem → List Str
  | (k, none) => [k]
  | (k, some []) => [k ++ " = ".toList]
  | (k, some (l :: ls)) => (k ++ " = ".toList ++ l) :: ls.map ('\t' :: ·)

/-- `_write_section`, `configparser.py`: header, items, empty line. -/
def writeSection (s : Str × List IniItem) : List Str :=
  ('[' :: s.1 ++ [']']) :: (s.2.flatMap writeItem ++ [[]])

/-- `ConfigParser.write`. -/
def writeIni (c : Ini) : List Str := c.flatMap writeSection

/-- State of `ConfigParser._read`: the sections in reverse order, their options in reverse order, with the lines of their
values in reverse order; whether the current section has a current option; the indentation of that option. -/
structure IniState where
  secs : List (Str × List IniItem)
  hasOpt : Bool
  indent : Nat

/-- Position of the first character that is no white space. -/
def indentOf (line : Str) : Nat := (line.takeWhile isWs).length

/-- Full line comments. -/
def isComment (t : Str) : Bool := t.head? == some '#' || t.head? == some ';'

/-- `str.rstrip()`. -/
def rstrip (s : Str) : Str := (s.reverse.dropWhile isWs).reverse

/-- `SECTCRE.match`: `\[(?P<header>.+)\]`, up to the last bracket. -/
def sectionHeader (t : Str) : Option Str :=
  match t with
  | '[' :: u =>
    let r := u.reverse.dropWhile (· ≠ ']')
    match r with
    | _ :: h => if h = [] then none else some h.reverse
    | [] => none
  | _ => none

/-- Delimiters of options. -/
def isDelim (c : Char) : Bool := c == '=' || c == ':'

/-- `OPTCRE_NV.match`: name and value, split at the first delimiter. -/
def optionLine (t : Str) : Str × Option Str :=
  match t.dropWhile (fun c => !isDelim c) with
  | [] => (lower (rstrip t), none)
  | _ :: v => (lower (rstrip (t.takeWhile fun c => !isDelim c)), some (strip v))

/-- A new line for the current option. -/
def appendLine (l : Str) : List (Str × List IniItem) → Except PyErr (List (Str × List IniItem))
  | (s, (k, some ls) :: items) :: rest => .ok ((s, (k, some (l :: ls)) :: items) :: rest)
  | _ => .error .attributeError

/-- One line of `ConfigParser._read`. -/
def readLine (st : IniState) (line : Str) : Except PyErr IniState :=
  let t := strip line
  if isComment t then .ok st
  else if t = [] then
    match st.hasOpt, st.secs with
    | true, (s, (k, some ls) :: items) :: rest => .ok { st with secs := (s, (k, some ([] :: ls)) :: items) :: rest }
    | _, _ => .ok st
  else if st.hasOpt ∧ st.indent < indentOf line then
    match appendLine t st.secs with
    | .ok secs => .ok { st with secs := secs }
    | .error e => .error e
  else match sectionHeader t with
    | some h =>
      if h ∈ st.secs.map (·.1) then .error .configError
      else .ok ⟨(h, []) :: st.secs, false, indentOf line⟩
    | none =>
      match st.secs with
      | [] => .error .configError
      | (s, items) :: rest =>
        let o := optionLine t
        if o.1 = [] ∨ o.1 ∈ items.map (·.1) then .error .configError
        else .ok ⟨(s, (o.1, o.2.map fun v => [v]) :: items) :: rest, true, indentOf line⟩

/-- All lines. -/
def readLines (st : IniState) : List Str → Except PyErr IniState
  | [] => .ok st
  | l :: ls => match readLine st l with
    | .ok st' => readLines st' ls
    | .error e => .error e

/-- `_join_multiline_values`: lines in order without empty lines at the end (`rstrip`; the lines are stripped already). -/
def joinLines (rev : List Str) : List Str :=
  match rev.dropWhile (· = []) with
  | [] => [[]]
  | l => l.reverse

/-- `ConfigParser.read_file` into an empty parser. -/
def readIni (lines : List Str) : Except PyErr Ini :=
  match readLines ⟨[], false, 0⟩ lines with
  | .error e => .error e
  | .ok st => .ok (st.secs.reverse.map fun s => (s.1, s.2.reverse.map fun i => (i.1, i.2.map joinLines)))

/-- Value of an option in a section, or else in `DEFAULT`; `none` raises `KeyError` in `config[section][option]`. -/
def lookup (c : Ini) (sec key : Str) : Option (Option (List Str)) :=
  match ((c.filter fun s => s.1 = sec).flatMap (·.2)).find? fun i => i.1 = key with
  | some i => some i.2
  | none => (((c.filter fun s => s.1 = "DEFAULT".toList).flatMap (·.2)).find? fun i => i.1 = key).map (·.2)

/-! ### A new configuration -/

/-- Options of `ConfigData(load_config_file=False, ...)` as keyword arguments, /repo/ledsa/core/ConfigData.py 15-20. -/
inductive Arg
  | imgDirectory | imgNameString | numImgOverflow | firstImgExperimentId | lastImgExperimentId | numCores | date | startTime
  | timeRefImgId | timeRefImgFile | timeRefImgTime | timeDiff | refImgId | percentile | channel | searchAreaRadius
  | maxNumLeds | numArrays | ignoreLedIndices | edgeIndices | edgeCoordinates | mergeIndices | firstImgAnalysisId
  | lastImgAnalysisId | numSkipImgs | numSkipLeds
deriving DecidableEq, Repr

/-- A comment entry. -/
def note (s : String) : Str × Option Arg := (s.toList, none)

/-- An option; the constructor puts three spaces in front of the name. -/
def opt (s : String) (a : Arg) : Str × Option Arg := ("   ".toList ++ s.toList, some a)

/-- The entries of a new configuration, /repo/ledsa/core/ConfigData.py 83-150. -/
def newEntries : List (Str × List (Str × Option Arg)) :=
  [("DEFAULT".toList,
    [note "# variables used in multiple parts of ledsa.",
     note "   # directory where the images for one experiment are stored.",
     opt "img_directory" .imgDirectory,
     note "   # string representing the naming convention of the image files.",
     opt "img_name_string" .imgNameString,
     note "   # maximum number of image counter.",
     opt "num_img_overflow" .numImgOverflow,
     note "# specify which images ar part of the experiment by image indices.",
     opt "first_img_experiment_id" .firstImgExperimentId,
     opt "last_img_experiment_id" .lastImgExperimentId,
     note "   # number of cpus, multicore processing is applied if > 1.",
     opt "num_cores" .numCores,
     note "",
     note "# variables used to calculate the timeline of the experiment.",
     note "   # date of the experiment.",
     opt "date" .date,
     note "   # beginning of the experiment, will be calculated from image with first_img_experiment_id if none.",
     opt "start_time" .startTime,
     note "   # id of time reference image name with a clock to calculate the offset of the camera time. can be none,",
     note "   # if time_diff_to_img_time in seconds is given. you might also use time_ref_img_file instead.",
     opt "time_img_id" .timeRefImgId,
     note "   # path of time reference image with a clock to calculate the offset of the camera time. can be none,",
     note "   # if time_diff_to_img_time in seconds is given. ou might also use time_ref_img_id instead.",
     opt "time_ref_img_file" .timeRefImgFile,
     note "   # time shown on the time reference image",
     opt "time_ref_img_time" .timeRefImgTime,
     opt "exif_time_infront_real_time" .timeDiff]),
   ("find_search_areas".toList,
    [note "# variables used to find the pixel positions of every led.",
     note "   # id of reference image used to find and label the leds.",
     opt "ref_img_id" .refImgId,
     note "   # threshold percentile of pixel value to find leds on the reference image.",
     opt "pixel_value_percentile" .percentile,
     note "   # camera channel on which leds should be found, \"all\" only works for raw image files",
     opt "channel" .channel,
     note "   # radius of pixels assigned to each led",
     opt "search_area_radius" .searchAreaRadius,
     note "   # maximum number of leds to detect on the reference image",
     opt "max_num_leds" .maxNumLeds]),
   ("analyse_positions".toList,
    [note "# variables used to find the physical positions of every led",
     note "   # number of led arrays",
     opt "num_arrays" .numArrays,
     note "# indices of leds to be ignored in further analysis",
     opt "ignore_led_indices" .ignoreLedIndices,
     note "   # pairs of led indices of the edges of each led array",
     opt "led_array_edge_indices" .edgeIndices,
     note "   # six coordinates per led array representing the physical positions of the",
     note "   # edges given in led_array_edge_indices.",
     opt "led_array_edge_coordinates" .edgeCoordinates,
     note "   # indices of the led arrays to merge for further analysis.",
     opt "merge_led_array_indices" .mergeIndices]),
   ("analyse_photo".toList,
    [note "# variables used for the final fitting of the intensity function.",
     note " ",
     note "# specify which images are used for analysis by image indices.",
     opt "first_img_analysis_id" .firstImgAnalysisId,
     opt "last_img_analysis_id" .lastImgAnalysisId,
     note "   # in the analysis, only images are considered with id dividable by skip_imgs + 1.",
     opt "num_skip_imgs" .numSkipImgs,
     note "   # in the analysis, only leds are considered with id dividable by skip_leds + 1.",
     opt "num_skip_leds" .numSkipLeds])]

/-- The contents of a new configuration, /repo/ledsa/core/ConfigData.py 83-150; `v` are the texts `str(argument)` by lines. -/
def newConfig (v : Arg → List Str) : Ini := newEntries.map fun s => (s.1, s.2.map fun i => (i.1, i.2.map v))

/-! ### Table valued options -/

/-- Lines of the value stored by `in_led_array_edge_indices`, /repo/ledsa/core/ConfigData.py 386-390 (and 403-407). -/
def promptLines (answers : List Str) : List Str :=
  [] :: (answers.map fun a => "\t    ".toList ++ a) ++ [[]]

/-- Rows of `n` consecutive elements, the rest is dropped, /repo/ledsa/core/ConfigData.py 217-219. -/
def rowsOf {α : Type} (n : Nat) (l : List α) : List (List α) :=
  (List.range (l.length / n)).map fun i => (l.drop (n * i)).take n

/-- `get2dnparray` for integers and a number of columns, /repo/ledsa/core/ConfigData.py 206-221. -/
def get2d (n : Nat) (value : List Str) : Except PyErr (Option (List (List Int))) :=
  if value = ["None".toList] then .ok none
  else match (value.flatMap splitWs).mapM pyInt with
    | .ok l => .ok (some (rowsOf n l))
    | .error e => .error e

/-- `get2dnparray(num_col='var')`, /repo/ledsa/core/ConfigData.py 208-214: one row for each non-empty line. -/
def get2dVar (value : List Str) : Except PyErr (Option (List (List Int))) :=
  if value = ["None".toList] then .ok none
  else match (value.filter (· ≠ [])).mapM fun l => (splitWs l).mapM pyInt with
    | .ok l => .ok (some l)
    | .error e => .error e

/-! ### Percent signs -/

/-- `value.replace('%%', '')`. -/
def dropDoublePercent : Str → Str
  | '%' :: '%' :: t => dropDoublePercent t
  | c :: t => c :: dropDoublePercent t
  | [] => []

/-- `BasicInterpolation.before_set`, `configparser.py`: whether a text may be stored. References `%(name)s` are not modelled. -/
def percentOk (v : Str) : Bool := !(dropDoublePercent v).contains '%'

end Ledsa
