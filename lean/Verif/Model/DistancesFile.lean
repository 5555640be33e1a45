import Verif.Model.SavedNumbers
import Verif.Model.Alignment
/-
Model of the files with the distances per layer that the analysis leaves, `set_all_member_variables` in
/repo/ledsa/analysis/ExtinctionCoefficients.py 107-121, over the loop of the analysis command,
/repo/ledsa/core/parser_arguments_run.py 218-249. Simplifications: a row of `nan` (missing distances) is not modelled; everything
between the file of distances and the saved coefficients is a function of distances, LED array and channel, or an exception; the test for
existing files, which looks in another directory (C52), is left out.
-/
namespace Ledsa

/-- `led_array_{n}_distances_per_layer.txt`, /repo/ledsa/analysis/ExtinctionCoefficients.py 114: in the working directory. -/
def distancesName (a : ℕ) : Str := "led_array_".toList ++ natStr a ++ "_distances_per_layer.txt".toList

/-- A line of `np.savetxt(file_name, distances)`: format `'%.18e'`, blanks between the numbers,
/repo/ledsa/analysis/ExtinctionCoefficients.py 115. -/
def distancesLine (row : List ℚ) : Str := joinChar ' ' (row.map (fmtSciD 18))

/-- The text of the file. -/
def distancesText (rows : List (List ℚ)) : Str := (rows.map fun r => distancesLine r ++ ['\n']).flatten

/-- `np.loadtxt(file_name, ndmin=2)`, what a user reads the file with: empty lines are skipped, fields are separated by white space.
`conv` is the conversion of a decimal number to a floating point number. -/
def readDistances {K : Type} (conv : ℚ → K) (text : Str) : Option (List (List K)) :=
  ((splitChar '\n' text).filter (· ≠ [])).mapM fun l => ((splitWs l).mapM readFloat).map fun xs => xs.map conv

/-- What an analysis command works with: the distances of an LED array (`calc_distance_array`, or an exception), and the coefficients that follow
from distances, LED array and channel. -/
structure DistanceJob (C : Type) where
  rows : ℕ → Except PyErr (List (List ℚ))
  solve : List (List ℚ) → ℕ → ℕ → Except PyErr C

/-- Files with distances by name, and files with coefficients by LED array and channel. -/
structure DistanceFiles (C : Type) where
  dist : Str → Option Str
  coef : ℕ × ℕ → Option C

/-- `set_all_member_variables` writes the distances, /repo/ledsa/analysis/ExtinctionCoefficients.py 112-115. -/
def DistanceFiles.writeDist {C : Type} (f : DistanceFiles C) (a : ℕ) (rows : List (List ℚ)) : DistanceFiles C :=
  { f with dist := fun n => if n = distancesName a then some (distancesText rows) else f.dist n }

/-- `save` writes the coefficients, /repo/ledsa/analysis/ExtinctionCoefficients.py 135-159. -/
def DistanceFiles.writeCoef {C : Type} (f : DistanceFiles C) (p : ℕ × ℕ) (x : C) : DistanceFiles C :=
  { f with coef := fun q => if q = p then some x else f.coef q }

/-- One passage of the loop, /repo/ledsa/core/parser_arguments_run.py 223-247: the files afterwards and the exception. -/
def DistanceJob.one {C : Type} (j : DistanceJob C) (p : ℕ × ℕ) (f : DistanceFiles C) : DistanceFiles C × Option PyErr :=
  match j.rows p.1 with
  | .error e => (f, some e)
  | .ok rows => match j.solve rows p.1 p.2 with
    | .error e => (f.writeDist p.1 rows, some e)
    | .ok x => ((f.writeDist p.1 rows).writeCoef p x, none)

/-- The loop over pairs of LED array and channel, /repo/ledsa/core/parser_arguments_run.py 218-249. -/
def DistanceJob.run {C : Type} (j : DistanceJob C) : List (ℕ × ℕ) → DistanceFiles C → DistanceFiles C × Option PyErr
  | [], f => (f, none)
  | p :: rest, f => match j.one p f with
    | (f', some e) => (f', some e)
    | (f', none) => j.run rest f'

/-- Several analysis commands one after another, each with its own configuration. -/
def runCommands {C : Type} : List (DistanceJob C × List (ℕ × ℕ)) → DistanceFiles C → DistanceFiles C
  | [], f => f
  | c :: rest, f => runCommands rest (c.1.run c.2 f).1

end Ledsa
