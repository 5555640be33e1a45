import Verif.Model.Analysis
import Verif.Model.Extinction
import Verif.Model.ExtcoTable
/-
Model of the analysis command over all LED arrays and channels with the contents of the saved files, and of the directory that post-processing reads.
The calculation for one array and channel is a parameter: coefficients of all images, or an exception. It does not depend on the other pairs: every
pair has its own objects, the binary tables created on the way are those that would be created anyway.
-/
namespace Ledsa

/-- The files of `analysis/extinction_coefficients/<solver>`: name, number of layers, times with coefficients. -/
abbrev CoeffDir (K : Type) := List (Str × ℕ × List (ℤ × List K))

/-- `np.savetxt` replaces a file of the same name, /repo/ledsa/analysis/ExtinctionCoefficients.py 159. -/
def CoeffDir.save {K : Type} (d : CoeffDir K) (name : Str) (content : ℕ × List (ℤ × List K)) : CoeffDir K :=
  d.filter (fun f => f.1 ≠ name) ++ [(name, content)]

/-- The content of a file. -/
def CoeffDir.file {K : Type} (d : CoeffDir K) (name : Str) : Option (ℕ × List (ℤ × List K)) := (d.find? fun f => f.1 = name).map (·.2)

/-- What an analysis command works with: the file names, the number of layers, the times in `image_infos_analysis.csv`, whether a file with this name
lies in `../analysis/extinction_coefficients` (/repo/ledsa/core/parser_arguments_run.py 220-222), the calculation for LED array and channel. -/
structure BatchJob (K : Type) where
  solver : Str
  property : Str
  layers : ℕ
  times : List ℤ
  skip : Str → Bool
  analyse : ℕ → ℕ → Except PyErr (List (List K))

/-- The file name of a pair of LED array and channel. -/
def BatchJob.name {K : Type} (j : BatchJob K) (p : ℕ × ℕ) : Str := coeffName j.solver j.property p.2 p.1

/-- One passage of the loop, /repo/ledsa/core/parser_arguments_run.py 220-249 with /repo/ledsa/analysis/ExtinctionCoefficients.py 135-159: the file
saved, `none` if the pair is skipped. -/
def BatchJob.one {K : Type} (j : BatchJob K) (p : ℕ × ℕ) : Except PyErr (Option (ℕ × List (ℤ × List K))) :=
  if j.skip (j.name p) then .ok none
  else match j.analyse p.1 p.2 with
    | .error e => .error e
    | .ok coefs => match columnStack j.times coefs with
      | .error e => .error e
      | .ok rows => .ok (some (j.layers, rows))

/-- `extionction_coefficient_calculation`, /repo/ledsa/core/parser_arguments_run.py 218-249, for pairs of LED array and channel: the directory
afterwards, and the exception that ended the program. -/
def BatchJob.run {K : Type} (j : BatchJob K) : List (ℕ × ℕ) → CoeffDir K → CoeffDir K × Option PyErr
  | [], d => (d, none)
  | p :: rest, d => match j.one p with
    | .error e => (d, some e)
    | .ok none => j.run rest d
    | .ok (some content) => j.run rest (d.save (j.name p) content)

/-- The pairs in the order of the loops over `led_arrays` and `channels`. -/
def batchPairs (arrays channels : List ℕ) : List (ℕ × ℕ) := arrays.flatMap fun a => channels.map fun c => (a, c)

/-- The paths and contents that `glob` finds, in any order; /repo/ledsa/postprocessing/simulation.py 167-170. -/
def Globbed {K : Type} (dir : Str) (d : CoeffDir K) (files : List (Str × ℕ × List (ℤ × List K))) : Prop :=
  files.Perm (d.map fun f => (dir ++ '/' :: f.1, f.2))

end Ledsa
