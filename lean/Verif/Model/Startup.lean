import Verif.Model.ImageInfos
import Verif.Model.Prompts

/-!
# The start of a data extraction: the object, the start time and the image lists

`/repo/ledsa/data_extraction/DataExtractor.py` 38-62, `/repo/ledsa/data_extraction/init_functions.py` 9-27 and 72-234,
`/repo/ledsa/core/ConfigData.py` 364-375 and 410-423. The configuration is the record of the options that are read; no option of
`DEFAULT` is overridden in `analyse_photo`. Reading the capture time from an image is a parameter that may fail in any way.
-/

namespace Ledsa

/-- The options that are read, ConfigData.py 83-150; the template of the image names is taken apart (`NameTemplate`). -/
structure StartCfg where
  dir : Str
  name : NameTemplate
  firstExp : Str
  lastExp : Str
  firstAna : Str
  lastAna : Str
  skip : Str
  startTime : Str
  date : Str
  offset : Str

/-- `str.format` with a text as argument, ConfigData.py 418-419: a format for integers raises `ValueError`. -/
def NameTemplate.formatStr (t : NameTemplate) (s : Str) : Except PyErr Str :=
  if t.width = 0 then .ok (t.pre ++ s ++ t.post) else .error .valueError

/-- `os.path.join` of two paths, posixpath. -/
def joinPath (a b : Str) : Str :=
  if b.head? = some '/' then b
  else if a = [] ∨ a.getLast? = some '/' then a ++ b
  else a ++ '/' :: b

/-- Two digits. -/
def twoDigits (n : Nat) : Str := zfill 2 (natStr n)

/-- `strftime('%H:%M:%S')` of a datetime in seconds. -/
def strfClock (t : Int) : Str :=
  let s := (t % daySec).toNat
  joinChar ':' [twoDigits (s / 3600), twoDigits (s / 60 % 60), twoDigits (s % 60)]

/-- `date, time_meta = exif_entry.split(' ')` and the datetime of it, ConfigData.py 420-421 and init_functions.py 117-118. -/
def captureTime (entry : Str) : Except PyErr Int :=
  match splitChar ' ' entry with
  | [d, t] => getDatetimeFromStr d t
  | _ => .error .valueError

/-- The image that `get_start_time` opens, /repo/ledsa/core/ConfigData.py 418-419: the directory followed by the name, without
separator. -/
def startPath (c : StartCfg) : Except PyErr Str := do
  let name ← c.name.formatStr c.firstExp
  .ok (c.dir ++ name)

/-- `get_start_time`, /repo/ledsa/core/ConfigData.py 410-423. -/
def getStartTime (exif : Str → Except PyErr Str) (c : StartCfg) : Except PyErr Str := do
  let path ← startPath c
  let entry ← exif path
  let t ← captureTime entry
  let o ← pyInt c.offset
  .ok (strfClock (t - o))

/-- `get_datetime`, /repo/ledsa/core/ConfigData.py 223-240: any exception ends the program. -/
def getStart (c : StartCfg) : Except PyErr Int :=
  match getDatetimeFromStr c.date c.startTime with
  | .ok t => .ok t
  | .error _ => .error .systemExit

/-- `str` of a number of seconds as float, for numbers below 10¹⁶. -/
def secondsText (z : Int) : Str := intStr z ++ ".0".toList

/-- One image of the list: `_calc_experiment_and_real_time` and the line, /repo/ledsa/data_extraction/init_functions.py 101-127 and
201-205. -/
def imageLine (exif : Str → Except PyErr Str) (c : StartCfg) (idx : Nat) (id : Str) : Except PyErr InfoRow := do
  let z ← pyInt id
  let entry ← exif (joinPath c.dir (c.name.format z))
  let t ← captureTime entry
  let start ← getStart c
  let real ← realTimeMillis t c.offset
  .ok ⟨idx, c.name.format z, strfClock (real / 1000), secondsText (t - start)⟩

/-- The loop over the images, /repo/ledsa/data_extraction/init_functions.py 201-206. -/
def imageLines (exif : Str → Except PyErr Str) (c : StartCfg) : Nat → List Str → Except PyErr (List InfoRow)
  | _, [] => .ok []
  | k, id :: ids => do
    let r ← imageLine exif c k id
    let rs ← imageLines exif c (k + 1) ids
    .ok (r :: rs)

/-- The questions for the range of the analysis, /repo/ledsa/data_extraction/init_functions.py 189-197 and
/repo/ledsa/core/ConfigData.py 364-375: asked for both lists. -/
def askRange (first last : Str) (c : StartCfg) : StartCfg :=
  { c with firstAna := if c.firstAna = noneText then first else c.firstAna
           lastAna := if c.lastAna = noneText then last else c.lastAna }

/-- First and last image and increment, /repo/ledsa/data_extraction/init_functions.py 192-199. -/
def readRange (b : BuildType) (c : StartCfg) : Except PyErr (Int × Int × Int) := do
  let first ← pyInt c.firstExp
  let last ← pyInt (match b with | .experiment => c.lastExp | .analysis => c.lastAna)
  let inc ← (match b with | .experiment => .ok 1 | .analysis => (pyInt c.skip).map (· + 1))
  .ok (first, last, inc)

/-- `generate_image_infos_csv` for one list, /repo/ledsa/data_extraction/init_functions.py 72-98 and 176-207: the configuration
afterwards and the rows of the list. `first` and `last` are the answers to the questions. -/
def imageInfos (exif : Str → Except PyErr Str) (b : BuildType) (first last : Str) (c : StartCfg) :
    Except PyErr (StartCfg × List InfoRow) := do
  let c ← (if c.startTime = noneText then do
      let s ← getStartTime exif c
      .ok { c with startTime := s }
    else .ok c : Except PyErr StartCfg)
  let c := askRange first last c
  let (f, l, inc) ← readRange b c
  let ids ← findImgNumberList f l inc
  let rows ← imageLines exif c 1 ids
  .ok (c, rows)

/-! ### The object -/

/-- The argument `channels`: a number, or a sequence of numbers. -/
inductive ChannelsArg
  | one (c : Nat)
  | many (l : List Nat)

/-- `channels=(0)`, /repo/ledsa/data_extraction/DataExtractor.py 38: parentheses around a number are no tuple. -/
def defaultChannels : ChannelsArg := .one 0

/-- `list(channels)`, /repo/ledsa/data_extraction/DataExtractor.py 50. -/
def channelList : ChannelsArg → Except PyErr (List Nat)
  | .one _ => .error .typeError
  | .many l => .ok l

/-- `create_needed_directories`, /repo/ledsa/data_extraction/init_functions.py 9-26: the directories afterwards. -/
def neededDirectories (channels : List Nat) (dirs : List Str) : List Str :=
  ("plots".toList :: "analysis".toList :: channels.map fun c => "analysis/channel".toList ++ natStr c).foldl
    (fun ds d => if d ∈ ds then ds else ds ++ [d]) dirs

/-- All arguments of a new configuration left at their defaults, /repo/ledsa/core/ConfigData.py 15-20. -/
def defaultArgs : Arg → List Str
  | .searchAreaRadius => ["10".toList]
  | .percentile => ["99.875".toList]
  | .channel => ["0".toList]
  | .numCores => ["1".toList]
  | .numSkipImgs => ["0".toList]
  | .numSkipLeds => ["0".toList]
  | _ => ["None".toList]

/-- What a run has done: `config.ini`, the directories, the questions. -/
structure StartWorld where
  file : Ini
  dirs : List Str
  asked : List Key

/-- `DataExtractor.__init__` up to the dialogue, /repo/ledsa/data_extraction/DataExtractor.py 49-60: the channels, and the world. The
answers are stored in the options of the dialogue only (`Cfg`); the file in the world is the one before the dialogue. -/
def extractorInit (env : PEnv) (ans : Key → Str) (channels : ChannelsArg) (load : Bool) (w : StartWorld) :
    StartWorld × Except PyErr (List Nat × Cfg) :=
  let config := if load then w.file else newConfig defaultArgs
  let w := { w with file := config }
  match channelList channels with
  | .error e => (w, .error e)
  | .ok l =>
    let w := { w with dirs := neededDirectories l w.dirs }
    let r := requestConfig env ans ⟨cfgOf config, cfgOf config, []⟩
    let w := { w with asked := r.1.asked }
    match r.2 with
    | some e => (w, .error e)
    | none => (w, .ok (l, r.1.cfg))

end Ledsa
