import Verif.Py.Text
import Verif.Py.Basic
/-
Model of `tools/photo_renamer.py`. A directory is a list of files with their contents; names are unique. Dates come from the
EXIF data as numbers together with the text `%-y%m%d`. The log file is not part of the directory (its name contains the time
of the run), it is only recorded whether it is kept.
-/
namespace Ledsa

/-- Files of a directory with their contents. -/
abbrev Dir (C : Type) := List (Str × C)

/-- Names of the files. -/
def Dir.names {C : Type} (d : Dir C) : List Str := d.map (·.1)

/-- `os.rename` of files on POSIX systems: an existing target is replaced. -/
def osRename {C : Type} (a b : Str) (d : Dir C) : Except PyErr (Dir C) :=
  match d.find? fun f => f.1 = a with
  | none => .error .fileNotFound
  | some f => if a = b then .ok d else .ok ((b, f.2) :: d.filter fun g => g.1 ≠ a ∧ g.1 ≠ b)

/-- Row of the table of images, /repo/ledsa/tools/photo_renamer.py 69-75: image, raw file (the text `NaT` if there is none),
capture date, and the date as `%-y%m%d`. -/
structure Shot where
  image : Str
  raw : Str
  date : Int
  stamp : Str
deriving DecidableEq

/-- The raw file of an image, /repo/ledsa/tools/photo_renamer.py 60-67; `base` is `image.rsplit(".", 1)[0]`. -/
def rawOf (names : List Str) (base : Str) : List Str → Str
  | [] => "NaT".toList
  | t :: ts => if base ++ '.' :: t ∈ names then base ++ '.' :: t else rawOf names base ts

/-- `raw.split('.')[-1]`, /repo/ledsa/tools/photo_renamer.py 110. -/
def extOf (raw : Str) : Str := (splitChar '.' raw).getLastD []

/-- New name of the image with a number, /repo/ledsa/tools/photo_renamer.py 112 and 131. -/
def newImage (name : Str) (s : Shot) (count : Nat) : Str := s.stamp ++ '_' :: name ++ '_' :: natStr count ++ ".jpg".toList

/-- New name of the raw file, /repo/ledsa/tools/photo_renamer.py 110-111 and 128-129. -/
def newRaw (name : Str) (s : Shot) (count : Nat) : Str := s.stamp ++ '_' :: name ++ '_' :: natStr count ++ '.' :: extOf s.raw

/-- The renamings in order, /repo/ledsa/tools/photo_renamer.py 121-133. `pd.isnull` is false for texts, also for `NaT`. -/
def renamePlan (name : Str) : List Shot → Nat → List (Str × Str)
  | [], _ => []
  | s :: l, count => (s.raw, newRaw name s count) :: (s.image, newImage name s count) :: renamePlan name l (count + 1)

/-- The renamings one after the other; an exception leaves the directory as it is then. -/
def runRenames {C : Type} : List (Str × Str) → Dir C → Dir C × Option PyErr
  | [], d => (d, none)
  | (a, b) :: l, d => match osRename a b d with
    | .error e => (d, some e)
    | .ok d' => runRenames l d'

/-- What is printed. -/
inductive RenameMsg | renamed | logSaved | logDeleted | noneRenamed
deriving DecidableEq, Repr

/-- End of the dialogue; `waiting` if the answers are used up. -/
inductive RenameEnd | waiting | exited | failed (e : PyErr)
deriving DecidableEq, Repr

/-- State after the dialogue. -/
structure RenameRes (C : Type) where
  dir : Dir C
  msgs : List RenameMsg
  logKept : Bool
  ending : RenameEnd
deriving DecidableEq

/-- The dialogue, /repo/ledsa/tools/photo_renamer.py 117-149, for a list of answers. -/
def renameDialogue {C : Type} (plan : List (Str × Str)) : List Str → Dir C → List RenameMsg → RenameRes C
  | [], d, ms => ⟨d, ms, true, .waiting⟩
  | [a], d, ms =>
    if a = "y".toList then
      match runRenames plan d with
      | (d', some e) => ⟨d', ms, true, .failed e⟩
      | (d', none) => ⟨d', ms ++ [.renamed], true, .waiting⟩
    else if a = "n".toList then ⟨d, ms ++ [.noneRenamed], true, .exited⟩
    else ⟨d, ms, true, .waiting⟩
  | a :: b :: rest, d, ms =>
    if a = "y".toList then
      match runRenames plan d with
      | (d', some e) => ⟨d', ms, true, .failed e⟩
      | (d', none) =>
        if b = "y".toList then ⟨d', ms ++ [.renamed, .logSaved], true, .exited⟩
        else if b = "n".toList then ⟨d', ms ++ [.renamed, .logDeleted], false, .exited⟩
        else renameDialogue plan rest d' (ms ++ [.renamed])
    else if a = "n".toList then ⟨d, ms ++ [.noneRenamed], true, .exited⟩
    else renameDialogue plan (b :: rest) d ms

end Ledsa
