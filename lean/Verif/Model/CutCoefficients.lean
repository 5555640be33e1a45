import Verif.Model.SavedNumbers
/-
Reading a file of extinction coefficients that is not complete: `pd.read_csv(file, skiprows=7)`,
/repo/ledsa/postprocessing/simulation.py 171-172, with missing fields and fields that are no numbers.
-/
namespace Ledsa

/-- What a field of a text table becomes. A column with a field that is no number consists of texts (then `num` stands for the text of
this number). -/
inductive CsvCell where
  | num (q : ℚ)
  | missing
  | text (s : Str)
deriving DecidableEq

/-- One field as `pd.read_csv` understands it, /repo/ledsa/postprocessing/simulation.py 172: empty fields are missing values (`nan`), digits with a
point at their end are a number. (Names for missing values such as `NA` do not occur.) -/
def csvCell (s : Str) : CsvCell :=
  if s = [] then .missing
  else match readFloat s with
    | some q => .num q
    | none => match s.getLast?, readFloat s.dropLast with
      | some '.', some q => .num q
      | _, _ => .text s

/-- The table of `pd.read_csv(file, skiprows=7)`, /repo/ledsa/postprocessing/simulation.py 172: number of columns and rows. Empty lines are skipped;
short rows are filled with missing values (`nan`). `none` is `EmptyDataError`: nothing after the skipped lines. Rows longer than the head do not
occur. -/
def readCoeffCells (text : Str) : Option (ℕ × List (List CsvCell)) :=
  match ((splitChar '\n' text).drop 7).filter (· ≠ []) with
  | [] => none
  | head :: lines =>
    let cols := (splitChar ',' head).length
    some (cols, lines.map fun l =>
      let cells := (splitChar ',' l).map csvCell
      cells ++ List.replicate (cols - cells.length) .missing)

end Ledsa
