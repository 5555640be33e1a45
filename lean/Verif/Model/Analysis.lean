import Verif.Py.Text
import Verif.Model.Extinction
import Mathlib.LinearAlgebra.Matrix.NonsingularInverse
import Mathlib.Data.Rat.Floor
/-
Model of the remaining parts of the analysis: colour correction (`analysis/data_preparation.py`), averaged image series
(`core/file_handling.py`), the check for existing results and the choice of the solver
(`core/parser_arguments_run.py`, `analysis/ExperimentData.py`) and list options (`analysis/ConfigDataAnalysis.py`).
-/
namespace Ledsa

/-! ### Colour correction -/

/-- Conversion of a float to an integer: truncation towards zero. -/
def truncZero (q : ℚ) : ℤ := if 0 ≤ q then ⌊q⌋ else ⌈q⌉

/-- `astype(np.int16)`: values that fit are truncated towards zero; what happens to the others depends on the platform, but
the result is always a 16 bit integer. -/
structure Int16Cast where
  cast : ℚ → ℤ
  fits : ∀ q, -32768 ≤ truncZero q → truncZero q ≤ 32767 → cast q = truncZero q
  range : ∀ q, -32768 ≤ cast q ∧ cast q ≤ 32767

/-- `apply_color_correction` for one LED of one image, /repo/ledsa/analysis/data_preparation.py 18-28: `raw c` is the value of
channel `c`, `channels` the chosen channels; the matrix product is exact here. Column `k` of the corrected array belongs to
the `k`-th chosen channel, but column number `channel` is stored for a channel. A singular matrix raises `LinAlgError`, a
wrong number of channels `ValueError`, a missing column `IndexError`. -/
noncomputable def applyCC {n : ℕ} (to16 : Int16Cast) (M : Matrix (Fin n) (Fin n) ℚ) (channels : List ℕ) (raw : ℕ → ℤ) :
    Except PyErr (List (ℕ × ℤ)) :=
  if M.det = 0 then .error .linAlgError
  else if channels.length ≠ n then .error .valueError
  else
    let cc : List ℤ := List.ofFn fun k : Fin n => to16.cast (∑ j : Fin n, M⁻¹ k j * (raw (channels.getD j 0) : ℚ))
    match channels.mapM fun c => cc[c]?.map fun v => (c, v) with
    | none => .error .indexError
    | some l => .ok l

/-! ### Averaged image series -/

/-- Pairs of consecutive elements, a last single one alone: `l[n:n+2] for n in range(0, len(l), 2)`, and the groups of
`groupby(np.arange(len) // 2)`. -/
def chunk2 {α : Type} : List α → List (List α)
  | a :: b :: t => [a, b] :: chunk2 t
  | [a] => [[a]]
  | [] => []

/-- `create_analysis_infos_avg`, /repo/ledsa/core/file_handling.py 47-72: names and experiment times. -/
def avgInfos (infos : List (Str × ℚ)) : List (Str × ℚ) :=
  infos.take 10 ++ (chunk2 (infos.drop 10)).map fun g =>
    (joinChar '/' (g.map (·.1)), (g.map (·.2)).sum / (g.length : ℚ))

/-- `read_hdf_avg`, /repo/ledsa/core/file_handling.py 146-166, on the number of images: the not averaged table is read. If it
does not exist, `average_all_fitpar` creates it by reading, and then fails because its own path is a tuple (line 199). -/
def readHdfAvg (imgs : ℕ) (exists_ : Bool) : Except PyErr ℕ := if exists_ then .ok imgs else .error .attributeError

/-- Calculation and `save` with `average_images=True`: `/repo/ledsa/analysis/ExtinctionCoefficients.py` 125-127, 80-86 and
156-159. `coeffs k` are the coefficients of the `k`-th image read. -/
def averagedRun {β : Type} (infos : List (Str × ℚ)) (exists_ : Bool) (coeffs : ℕ → β) : Except PyErr (List (ℚ × β)) :=
  match readHdfAvg infos.length exists_ with
  | .error e => .error e
  | .ok n => columnStack ((avgInfos infos).map (·.2)) ((List.range n).map coeffs)

/-! ### Existing results -/

/-- A file path as list of components, without `..`. -/
abbrev Path := List Str

/-- `os.path.join(cwd, '../analysis', 'extinction_coefficients', name)`, /repo/ledsa/core/parser_arguments_run.py 220-221,
resolved (no symbolic links). -/
def checkedPath (cwd : Path) (name : Str) : Path :=
  cwd.dropLast ++ ["analysis".toList, "extinction_coefficients".toList, name]

/-- Path of the saved file, /repo/ledsa/analysis/ExtinctionCoefficients.py 140-143 with `path = Path('.')`. -/
def savedPath (cwd : Path) (solver name : Str) : Path :=
  cwd ++ ["analysis".toList, "extinction_coefficients".toList, solver, name]

/-- File name, /repo/ledsa/core/parser_arguments_run.py 221 and /repo/ledsa/analysis/ExtinctionCoefficients.py 143. -/
def coeffName (solver property : Str) (channel array : ℕ) : Str :=
  "extinction_coefficients_".toList ++ solver ++ "_channel_".toList ++ natStr channel ++ '_' :: property ++
    "_led_array_".toList ++ natStr array ++ ".csv".toList

/-- The loop of `extionction_coefficient_calculation`, /repo/ledsa/core/parser_arguments_run.py 218-249, over the pairs of
array and channel: existing files and the list of calculations made. -/
def analysisRun (cwd : Path) (solver property : Str) : List (ℕ × ℕ) → List Path → List Path × List (ℕ × ℕ)
  | [], files => (files, [])
  | (a, c) :: rest, files =>
    if checkedPath cwd (coeffName solver property c a) ∈ files then analysisRun cwd solver property rest files
    else
      let r := analysisRun cwd solver property rest (savedPath cwd solver (coeffName solver property c a) :: files)
      (r.1, (a, c) :: r.2)

/-! ### Solver names -/

/-- ASCII `str.lower()`. -/
def lower (s : Str) : Str := s.map Char.toLower

/-- The two solvers. -/
inductive SolverKind | linear | nonlinear
deriving DecidableEq, Repr

/-- Which solver is used, /repo/ledsa/core/parser_arguments_run.py 204-216. -/
def chosenSolver (s : Str) : SolverKind :=
  if lower s = "linear".toList then .linear
  else if lower s = "nonlinear".toList ∨ lower s = "numeric".toList then .nonlinear
  else .linear

/-- For which solver the parameters are read from the configuration, /repo/ledsa/analysis/ExperimentData.py 76-82. -/
def loadedParams (s : Str) : Option SolverKind :=
  if s = "nonlinear".toList then some .nonlinear else if s = "linear".toList then some .linear else none

/-! ### List options -/

/-- `get_list_of_values` for integers and an existing option, /repo/ledsa/analysis/ConfigDataAnalysis.py 114-147, with the
default `fallback=None`. -/
def listOption (raw : Str) : Option (List ℤ) :=
  let s := strip raw
  if lower s = "none".toList ∨ s = [] then none
  else match (splitWs s).mapM pyInt with
    | .ok l => some l
    | .error _ => none

/-- `str(list)` of integers, as written by the constructor, /repo/ledsa/analysis/ConfigDataAnalysis.py 60 and 82. -/
def pyListStr (l : List ℤ) : Str :=
  '[' :: go l ++ [']']
where
  go : List ℤ → Str
    | [] => []
    | [x] => intStr x
    | x :: xs => intStr x ++ ", ".toList ++ go xs

end Ledsa
