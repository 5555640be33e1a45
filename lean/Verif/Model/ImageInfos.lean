import Verif.Py.Text
/-
Model of the image lists: which images are listed for the experiment and for the analysis, how the list is
written to and read from `image_infos*.csv`, and how many images the analysis loads.
-/
namespace Ledsa

/-- `largest_number` of `_find_img_number_list`, /repo/ledsa/data_extraction/init_functions.py 166-168:
`sum of 9 * 10 ** i for i in range(number_string_length)`. -/
def largestNumber (w : Nat) : Nat := (List.range w).foldl (fun acc i => acc + 9 * 10 ^ i) 0

/-- The integers behind `_find_img_number_list`, /repo/ledsa/data_extraction/init_functions.py 163-172.
The `int(num_list[-1])` of line 172 is taken on the integer itself (`int(str(e).zfill(4)) = e`, proved as
`pyInt_zfill_intStr`); an empty first part raises `IndexError` there. -/
def imgNumberInts (first last inc : Int) (w : Nat) : Except PyErr (List Int) :=
  if first ≤ last then pyRange first (last + 1) inc
  else
    match pyRange first ((largestNumber w : Int) + 1) inc with
    | .error e => .error e
    | .ok part1 =>
      match part1.getLast? with
      | none => .error .indexError
      | some l =>
        match pyRange (inc - ((largestNumber w : Int) - l)) (last + 1) inc with
        | .error e => .error e
        | .ok part2 => .ok (part1 ++ part2)

/-- `_find_img_number_list`, /repo/ledsa/data_extraction/init_functions.py 148-173 (printing omitted). -/
def findImgNumberList (first last inc : Int) (w : Nat := 4) : Except PyErr (List Str) :=
  match imgNumberInts first last inc w with
  | .error e => .error e
  | .ok l => .ok (l.map fun e => zfill w (intStr e))

/-- The configuration keys that select images (/repo/ledsa/core/ConfigData.py 15-154), after `getint`. -/
structure ImgCfg where
  firstExp : Int
  lastExp : Int
  firstAna : Int
  lastAna : Int
  numSkipImgs : Int
  /-- `num_img_overflow`; `none` is the text `None`. -/
  overflow : Option Int
deriving DecidableEq, Repr

/-- The two values of `build_type`. -/
inductive BuildType
  | experiment  -- 'DEFAULT'
  | analysis    -- 'analyse_photo'
deriving DecidableEq, Repr

/-- Selection of first/last/increment in `_build_img_data_string`,
/repo/ledsa/data_extraction/init_functions.py 192-200. Line 192 reads `first_img_experiment_id` for both
build types (a `[analyse_photo]` lookup falls back to `[DEFAULT]`). -/
def imgSelection (b : BuildType) (c : ImgCfg) : Int × Int × Int :=
  (c.firstExp,
   match b with | .experiment => c.lastExp | .analysis => c.lastAna,
   match b with | .experiment => 1 | .analysis => c.numSkipImgs + 1)

/-- `img_id_list` in `_build_img_data_string`, /repo/ledsa/data_extraction/init_functions.py 200. -/
def imgIdList (b : BuildType) (c : ImgCfg) : Except PyErr (List Str) :=
  findImgNumberList (imgSelection b c).1 (imgSelection b c).2.1 (imgSelection b c).2.2

/-- `img_name_string` with one placeholder, `pre{}post` or `pre{:0wd}post` (`width = 0` stands for `{}`).
Other format specifications are not modelled. -/
structure NameTemplate where
  pre : Str
  width : Nat
  post : Str

/-- `img_name_string.format(int(img_id))`, /repo/ledsa/data_extraction/init_functions.py 204. -/
def NameTemplate.format (t : NameTemplate) (z : Int) : Str := t.pre ++ zfill t.width (intStr z) ++ t.post

/-- One row of `image_infos_analysis.csv`. -/
structure InfoRow where
  idx : Nat
  name : Str
  time : Str
  expTime : Str
deriving DecidableEq

/-- The loop of `_build_img_data_string`, /repo/ledsa/data_extraction/init_functions.py 201-206, from running
index `k` on. The two time columns are a parameter (`_calc_experiment_and_real_time` reads EXIF data). -/
def infoRowsFrom (t : NameTemplate) (times : Int → Str × Str) : Nat → List Str → Except PyErr (List InfoRow)
  | _, [] => .ok []
  | k, s :: ss =>
    match pyInt s with
    | .error e => .error e
    | .ok z =>
      match infoRowsFrom t times (k + 1) ss with
      | .error e => .error e
      | .ok rows => .ok (⟨k, t.format z, (times z).1, (times z).2⟩ :: rows)

/-- `_build_img_data_string`, /repo/ledsa/data_extraction/init_functions.py 176-207. -/
def buildInfoRows (b : BuildType) (c : ImgCfg) (t : NameTemplate) (times : Int → Str × Str) :
    Except PyErr (List InfoRow) :=
  match imgIdList b c with
  | .error e => .error e
  | .ok ids => infoRowsFrom t times 1 ids

/-- One line of the file, /repo/ledsa/data_extraction/init_functions.py 204-205. -/
def infoLine (r : InfoRow) : Str := joinChar ',' [natStr r.idx, r.name, r.time, r.expTime]

/-- `_save_analysis_infos`, /repo/ledsa/data_extraction/init_functions.py 210-221, as the list of lines. -/
def infoFile (rows : List InfoRow) : List Str :=
  "#ID,Name,Time[s],Experiment_Time[s]".toList :: rows.map infoLine

/-- `np.loadtxt(..., delimiter=',', dtype=str)` as used by `read_table`,
/repo/ledsa/core/file_handling.py 74-113: text from `#` on is a comment, blank lines are skipped,
the rest is split at commas. (Quoting and ragged rows are not modelled.) -/
def loadCsv (lines : List Str) : List (List Str) :=
  ((lines.map fun l => l.takeWhile (· != '#')).filter (fun l => l ≠ [])).map (splitChar ',')

/-- The loop of `get_img_name`, /repo/ledsa/core/image_handling.py 16-21. -/
def findName : List (List Str) → Str → Except PyErr Str
  | [], _ => .error .nameError
  | (a :: b :: _) :: rs, q =>
    match pyInt a, pyInt q with
    | .ok x, .ok y => if x = y then .ok b else findName rs q
    | .error e, _ => .error e
    | _, .error e => .error e
  | _ :: _, _ => .error .indexError

/-- The loop of `get_img_id`, /repo/ledsa/core/image_handling.py 34-39. -/
def findId : List (List Str) → Str → Except PyErr Str
  | [], _ => .error .nameError
  | (a :: b :: _) :: rs, q => if b = q then .ok a else findId rs q
  | _ :: _, _ => .error .indexError

/-- `get_img_name`, /repo/ledsa/core/image_handling.py 6-21. -/
def getImgName (file : List Str) (q : Str) : Except PyErr Str := findName (loadCsv file) q

/-- `get_img_id`, /repo/ledsa/core/image_handling.py 24-39. -/
def getImgId (file : List Str) (q : Str) : Except PyErr Str := findId (loadCsv file) q

/-- `number_of_images` in `create_binary_data`, /repo/ledsa/core/file_handling.py 235-243.
Python `%` and `//` by a positive number are floor operations (`Int.emod`/`Int.ediv` agree for positive
divisors); the guard stands for `ZeroDivisionError`/negative settings. -/
def binaryImageCount (c : ImgCfg) : Except PyErr Int :=
  let maxId : Int := c.overflow.getD (10 ^ 7)
  if 0 < maxId ∧ 0 < c.numSkipImgs + 1 then
    .ok (((maxId + c.lastAna - c.firstAna) % maxId + 1) / (c.numSkipImgs + 1))
  else .error .valueError

end Ledsa
