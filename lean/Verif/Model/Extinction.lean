import Verif.Py.Basic
import Mathlib.Algebra.Order.Field.Basic
import Mathlib.Data.Rat.Defs
/-
Model of the calculation of extinction coefficients for a series of images, `analysis/ExtinctionCoefficients.py`, and of
the check of the reference images, `data_extraction/data_integrity.py`. Values are elements of an ordered field; the solver
for one image is a parameter.
-/
namespace Ledsa

variable {K : Type}

/-- Rows of `calculated_img_data` of one LED array: image id, LED id, value of the reference property. -/
abbrev ImgData (K : Type) := List (Nat × Nat × K)

/-- The keys of a `groupby`: distinct, ascending. -/
def insertKey (k : Nat) : List Nat → List Nat
  | [] => [k]
  | x :: xs => if k < x then k :: x :: xs else if k = x then x :: xs else x :: insertKey k xs

/-- The keys of a `groupby`. -/
def groupKeys (ks : List Nat) : List Nat := ks.foldr insertKey []

/-- Values of one image in row order (`groupby(level=0)`, `.loc[i]`). -/
def imgValues (t : ImgData K) (i : Nat) : List K := (t.filter fun r => r.1 = i).map (·.2.2)

/-- Values of one LED in row order (`groupby(level='led_id')`). -/
def ledValues (t : ImgData K) (l : Nat) : List K := (t.filter fun r => r.2.1 = l).map (·.2.2)

/-- Choice of the reference images: the first ones, or a list of ids. -/
inductive RefChoice
  | first (n : Nat)
  | ids (l : List Nat)

/-- `query(...)`, /repo/ledsa/analysis/ExtinctionCoefficients.py 182-185. -/
def RefChoice.selects : RefChoice → Nat → Bool
  | .first n, i => i ≤ n
  | .ids l, i => l.contains i

/-- `ref_img_data`, /repo/ledsa/analysis/ExtinctionCoefficients.py 182-185. -/
def refData (c : RefChoice) (t : ImgData K) : ImgData K := t.filter fun r => c.selects r.1

/-- `mean()`; only used for non-empty groups. -/
def meanOf [Field K] (l : List K) : K := l.sum / l.length

/-- Mean of the reference values of one LED. -/
def refMean [Field K] (c : RefChoice) (t : ImgData K) (l : Nat) : K := meanOf (ledValues (refData c t) l)

/-- `ref_intensities` as array, /repo/ledsa/analysis/ExtinctionCoefficients.py 189-191: one value per LED that occurs in the
reference images, by ascending LED id. -/
def refIntensities [Field K] (c : RefChoice) (t : ImgData K) : List K :=
  (groupKeys ((refData c t).map (·.2.1))).map (refMean c t)

/-- Division of one-dimensional numpy arrays with broadcasting. -/
def npDivide [Field K] (a r : List K) : Except PyErr (List K) :=
  if a.length = r.length then .ok (a.zipWith (· / ·) r)
  else match a, r with
    | [x], r => .ok (r.map (x / ·))
    | a, [y] => .ok (a.map (· / y))
    | _, _ => .error .valueError

/-- Relative intensities of all images in the serial calculation, /repo/ledsa/analysis/ExtinctionCoefficients.py 80-82. -/
def serialRel [Field K] (t : ImgData K) (ref : List K) : Except PyErr (List (List K)) :=
  (groupKeys (t.map (·.1))).mapM fun i => npDivide (imgValues t i) ref

/-- `array[i] = multi_series.loc[i + 1]`, /repo/ledsa/analysis/ExtinctionCoefficients.py 244: a missing image is a
`KeyError`, a wrong number of values a `ValueError` (a single value is broadcast). -/
def arrayRow (t : ImgData K) (numLeds i : Nat) : Except PyErr (List K) :=
  match imgValues t (i + 1) with
  | [] => .error .keyError
  | [x] => .ok (List.replicate numLeds x)
  | l => if l.length = numLeds then .ok l else .error .valueError

/-- `multiindex_series_to_nparray`, /repo/ledsa/analysis/ExtinctionCoefficients.py 231-245. -/
def toArray (t : ImgData K) : Except PyErr (List (List K)) :=
  match groupKeys (t.map (·.1)), groupKeys (t.map (·.2.1)) with
  | i0 :: _, l0 :: _ =>
    (List.range (ledValues t l0).length).mapM fun i => arrayRow t (imgValues t i0).length i
  | _, _ => .error .indexError

/-- Relative intensities of all images in the parallel calculation, /repo/ledsa/analysis/ExtinctionCoefficients.py 97-98. -/
def poolRel [Field K] (t : ImgData K) (ref : List K) : Except PyErr (List (List K)) :=
  match toArray t with
  | .error e => .error e
  | .ok a => a.mapM fun row => npDivide row ref

/-! ### The two ways of calculation -/

/-- `calc_coefficients_of_img` as function of the coefficients stored so far and the relative intensities. -/
abbrev ImgSolver (K C : Type) := List C → List K → C

/-- The linear solver ignores stored coefficients, /repo/ledsa/analysis/ExtinctionCoefficientsLinear.py 43-92. -/
def linearSolver {C : Type} (f : List K → C) : ImgSolver K C := fun _ rel => f rel

/-- The nonlinear solver starts from the last stored coefficients, or from zeros,
/repo/ledsa/analysis/ExtinctionCoefficientsNonLinear.py 69-77; `minimise start target` stands for the minimiser. -/
def nonlinearSolver {C : Type} (minimise : C → List K → C) (zeros : C) : ImgSolver K C :=
  fun stored rel => minimise (stored.getLast?.getD zeros) rel

/-- `calc_and_set_coefficients`, /repo/ledsa/analysis/ExtinctionCoefficients.py 80-86: appends to the stored list. -/
def runSerial {C : Type} (solve : ImgSolver K C) (rels : List (List K)) (stored : List C) : List C :=
  rels.foldl (fun cs rel => cs ++ [solve cs rel]) stored

/-- `calc_and_set_coefficients_mp`, /repo/ledsa/analysis/ExtinctionCoefficients.py 96-104: every worker gets a copy of the
object as it is before the calculation; the stored list is replaced. -/
def runPool {C : Type} (solve : ImgSolver K C) (rels : List (List K)) (stored : List C) : List C :=
  rels.map (solve stored)

/-- `np.column_stack((experiment_times, coefficients))`, /repo/ledsa/analysis/ExtinctionCoefficients.py 156-159. -/
def columnStack {T C : Type} (times : List T) (coeffs : List C) : Except PyErr (List (T × C)) :=
  if times.length = coeffs.length then .ok (times.zip coeffs) else .error .valueError

/-! ### Check of the reference images -/

/-- `rel_devs > tolerance` for one value, /repo/ledsa/data_extraction/data_integrity.py 24-25: division by a zero mean gives
`inf` or `nan`. -/
def exceeds [Field K] [LinearOrder K] (tol v ref : K) : Bool :=
  if ref = 0 then decide (v ≠ 0) else decide (|v - ref| / |ref| > tol)

/-- `hits`, /repo/ledsa/data_extraction/data_integrity.py 24-25: the pairs named in the warning. -/
def hits [Field K] [LinearOrder K] (tol : K) (c : RefChoice) (t : ImgData K) : List (Nat × Nat) :=
  ((refData c t).filter fun r => exceeds tol r.2.2 (refMean c t r.2.1)).map fun r => (r.1, r.2.1)

/-- Whether `warnings.warn` is called, /repo/ledsa/data_extraction/data_integrity.py 27-41. -/
def warned [Field K] [LinearOrder K] (tol : K) (c : RefChoice) (t : ImgData K) : Bool := hits tol c t ≠ []

end Ledsa
