import Verif.Model.Rename
import Verif.Model.Time
/-
Model of `get_files` of `tools/photo_renamer.py`: which images are taken into account, when they were taken and which raw
file belongs to them. Image types contain no characters that are special for `glob`; the order in which `glob` lists the
files is that of the directory. Times are numbers of microseconds.
-/
namespace Ledsa

/-- EXIF entries of an image; `none` if the entry is missing. -/
structure ExifInfo where
  datetime : Option Str
  subsec : Option Str
deriving DecidableEq

/-- `get_exif_entry`, /repo/ledsa/core/image_reading.py 107-127: a missing entry ends the program with `exit(1)`. -/
def exifEntry : Option Str → Except PyErr Str
  | some s => .ok s
  | none => .error .systemExit

/-- `datetime.strptime(s, '%Y:%m:%d %H:%M:%S')`, /repo/ledsa/tools/photo_renamer.py 59, in seconds (one space between date
and time). -/
def parseExif (s : Str) : Except PyErr Int :=
  match splitChar ' ' s with
  | [date, time] => match splitChar ':' date with
    | [y, m, d] => mkDateTime y m d time
    | _ => .error .valueError
  | _ => .error .valueError

/-- Directive `%f` of `strptime`: one to six digits, filled up with zeros on the right. -/
def microVal (f : Str) : Option Nat :=
  match strpField 1 6 f with
  | some v => some (v * 10 ^ (6 - f.length))
  | none => none

/-- `datetime.strptime(s, '%Y:%m:%d %H:%M:%S.%f')`, /repo/ledsa/tools/photo_renamer.py 56, in microseconds. -/
def parseExifFrac (s : Str) : Except PyErr Int :=
  match splitChar '.' s with
  | [a, f] => match parseExif a, microVal f with
    | .ok t, some u => .ok (t * 1000000 + u)
    | _, _ => .error .valueError
  | _ => .error .valueError

/-- Time of an image, /repo/ledsa/tools/photo_renamer.py 52-59. The bare `except` also catches the `exit(1)` of a missing
entry for the fraction of a second. -/
def captureDate (e : ExifInfo) : Except PyErr Int :=
  match exifEntry e.datetime with
  | .error er => .error er
  | .ok s =>
    match (exifEntry e.subsec).bind fun f => parseExifFrac (s ++ '.' :: f) with
    | .ok t => .ok t
    | .error _ => match parseExif s with
      | .ok t => .ok (t * 1000000)
      | .error er => .error er

/-- `capture_date.strftime('%-y%m%d')`, /repo/ledsa/tools/photo_renamer.py 103 and 124, from the EXIF text: year without
century and without leading zero, month and day with two digits. -/
def exifStamp (s : Str) : Str :=
  match splitChar ':' ((splitChar ' ' s).headD []) with
  | [y, m, d] => match parseNat y, parseNat m, parseNat d with
    | some y, some m, some d => natStr (y % 100) ++ zfill 2 (natStr m) ++ zfill 2 (natStr d)
    | _, _, _ => []
  | _ => []

/-- The types from the input, /repo/ledsa/tools/photo_renamer.py 37-38. -/
def typesOf (input : Str) : List Str := (splitChar ',' input).map strip

/-- `glob.glob('*.type')`, /repo/ledsa/tools/photo_renamer.py 44: names with the ending, without hidden files. -/
def globType (names : List Str) (t : Str) : List Str :=
  names.filter fun n => decide (('.' :: t) <:+ n) && decide (n.head? ≠ some '.')

/-- Keys of a dictionary in the order of their first insertion. -/
def dictKeys : List Str → List Str
  | [] => []
  | k :: l => k :: (dictKeys l).filter (· ≠ k)

/-- `image.rsplit(".", 1)[0]`, /repo/ledsa/tools/photo_renamer.py 63. -/
def rsplitBase (image : Str) : Str := joinChar '.' (splitChar '.' image).dropLast

/-- Row of an image, /repo/ledsa/tools/photo_renamer.py 47-70. -/
def shotOf (names : List Str) (exif : Str → ExifInfo) (rawTypes : List Str) (image : Str) : Except PyErr Shot :=
  match captureDate (exif image) with
  | .error e => .error e
  | .ok t => .ok ⟨image, rawOf names (rsplitBase image) rawTypes, t, exifStamp ((exif image).datetime.getD [])⟩

/-- All rows of the table; the first exception ends the loop. -/
def shotsOf (names : List Str) (exif : Str → ExifInfo) (rawTypes : List Str) : List Str → Except PyErr (List Shot)
  | [] => .ok []
  | i :: l => match shotOf names exif rawTypes i with
    | .error e => .error e
    | .ok s => match shotsOf names exif rawTypes l with
      | .error e => .error e
      | .ok r => .ok (s :: r)

/-- The table before sorting, /repo/ledsa/tools/photo_renamer.py 34-73, for the two inputs. An image listed for several types
has one row. -/
def imageTable (names : List Str) (exif : Str → ExifInfo) (imageInput rawInput : Str) : Except PyErr (List Shot) :=
  shotsOf names exif (typesOf rawInput) (dictKeys ((typesOf imageInput).flatMap (globType names)))

/-- `image_df.sort_values(by=['capture_date'])`, /repo/ledsa/tools/photo_renamer.py 74: some arrangement with increasing
dates; the default algorithm of pandas leaves the order of equal dates open. -/
def SortedTable (rows sorted : List Shot) : Prop :=
  sorted.Perm rows ∧ sorted.Pairwise fun a b => a.date ≤ b.date

end Ledsa
