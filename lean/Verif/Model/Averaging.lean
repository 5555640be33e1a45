import Verif.Model.Analysis
/-
Model of the averaging of images: `average_all_fitpar`, /repo/ledsa/core/file_handling.py 169-200. Rows have the columns every table
has; there are no missing values; `n_summarize` is at least 1. Means are exact. The table is given as value: the function fails
afterwards because its path is a tuple (line 199; `readHdfAvg`).
-/
namespace Ledsa

/-- A row of the table of a channel; the array id is a number because it is averaged as well. -/
structure AvgRow where
  img : ℕ
  led : ℕ
  array : ℚ
  sum : ℚ
  mean : ℚ
  max : ℚ
deriving DecidableEq

/-- The groups of `groupby(np.arange(len(tail)) // n)`, line 185. -/
def groupsOf {α : Type} (n : ℕ) (l : List α) : List (List α) := (List.range ((l.length + n - 1) / n)).map fun g => (l.drop (g * n)).take n

/-- `mean()` of a column, line 185. -/
def colMean (f : AvgRow → ℚ) (rows : List AvgRow) : ℚ := (rows.map f).sum / (rows.length : ℚ)

/-- The rows of one LED, lines 182-189 with the conversion of line 192: the first `r` rows stay, the following ones are averaged in
groups of `n` and get the next ids. -/
def averageLed (r n : ℕ) (led : ℕ) (rows : List AvgRow) : List AvgRow :=
  ((rows.take r ++ (groupsOf n (rows.drop r)).zipIdx.map fun g =>
      ⟨r + 1 + g.2, led, colMean (·.array) g.1, colMean (·.sum) g.1, colMean (·.mean) g.1, colMean (·.max) g.1⟩) : List AvgRow).map fun row =>
    { row with array := truncZero row.array, sum := truncZero row.sum }

/-- The rows of an LED of an array, `groupby(['led_array_id', 'led_id'])`, line 180. -/
def rowsOfLed (a led : ℕ) (rows : List AvgRow) : List AvgRow := rows.filter fun x => x.array = a ∧ x.led = led

/-- The table, lines 179-191 with 192: array ids are whole numbers before averaging. -/
def averageTable (r n : ℕ) (rows : List AvgRow) : List AvgRow :=
  (groupKeys (rows.map fun x => ⌊x.array⌋.toNat)).flatMap fun (a : ℕ) =>
    (groupKeys ((rows.filter fun x => x.array = (a : ℚ)).map (·.led))).flatMap fun led => averageLed r n led (rowsOfLed a led rows)

end Ledsa
