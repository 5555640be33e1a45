import Verif.Model.Rename

/-!
# The log file of the renaming

The file that `tools/photo_renamer.py` writes before it renames anything. Its text is that of `csv.writer` with the default dialect.
The time in the name of the file is not modelled, nor is the encoding of the text.
-/

namespace Ledsa

/-- `csv.writer` (library; default dialect): a text with a comma, a quotation mark or a line break is put in quotation marks, and
quotation marks in it are doubled. -/
def csvQuoted (f : Str) : Bool := f.any fun c => c = ',' || c = '"' || c = '\r' || c = '\n'

/-- A text in quotation marks. -/
def csvEscape : Str → Str
  | [] => []
  | c :: f => if c = '"' then '"' :: '"' :: csvEscape f else c :: csvEscape f

/-- One entry of a line. -/
def csvEntry (f : Str) : Str := if csvQuoted f then '"' :: csvEscape f ++ ['"'] else f

/-- `writer.writerow`, called in /repo/ledsa/tools/photo_renamer.py 100 and 114. -/
def csvLine : List Str → Str
  | [] => "\r\n".toList
  | [f] => csvEntry f ++ "\r\n".toList
  | f :: g :: l => csvEntry f ++ ',' :: csvLine (g :: l)

/-- First line of the log, /repo/ledsa/tools/photo_renamer.py 100. -/
def renameLogHeader : List Str :=
  ["old_image_name".toList, "new_image_name".toList, "old_raw_name".toList, "new_raw_name".toList]

/-- Rows of the log, /repo/ledsa/tools/photo_renamer.py 101-115. -/
def renameLogRows (name : Str) : List Shot → Nat → List (List Str)
  | [], _ => []
  | s :: l, count => [s.image, newImage name s count, s.raw, newRaw name s count] :: renameLogRows name l (count + 1)

/-- The log, /repo/ledsa/tools/photo_renamer.py 98-115. It is complete before the user is asked whether to rename. -/
def renameLog (name : Str) (shots : List Shot) : Str :=
  (renameLogHeader :: renameLogRows name shots 1).flatMap csvLine

end Ledsa
