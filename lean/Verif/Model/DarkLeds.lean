import Verif.Model.Pipeline
/-
Relative intensities with the special values of floating point division. `Model/Pipeline` divides real numbers, where division by zero gives zero.
In numpy it gives `inf` or `nan`. Zeros are positive zeros; numbers are not rounded.
-/
namespace Ledsa

/-- A result of a floating point operation: a number, an infinity with its sign, or `nan`. -/
inductive NpFloat
  | num (x : ℝ)
  | inf (positive : Bool)
  | nan

/-- Division in numpy, /repo/ledsa/analysis/ExtinctionCoefficients.py 82 and 98. -/
noncomputable def npQuotient (x y : ℝ) : NpFloat :=
  if y = 0 then if x = 0 then .nan else .inf (0 < x) else .num (x / y)

/-- `np.clip(rel_intensities, 1e-10, 1.0)`, /repo/ledsa/analysis/ExtinctionCoefficientsLinear.py 55-56: infinities become the bounds, `nan` stays.
`none` is `nan`. -/
noncomputable def NpFloat.clip : NpFloat → Option ℝ
  | .num x => some (Ledsa.clip x)
  | .inf true => some 1
  | .inf false => some (1 / 10 ^ 10)
  | .nan => none

/-- Division of one-dimensional numpy arrays with broadcasting, /repo/ledsa/analysis/ExtinctionCoefficients.py 82 and 98. -/
noncomputable def npQuotients (a r : List ℝ) : Except PyErr (List NpFloat) :=
  if a.length = r.length then .ok (a.zipWith npQuotient r)
  else match a, r with
    | [x], r => .ok (r.map (npQuotient x))
    | a, [y] => .ok (a.map fun x => npQuotient x y)
    | _, _ => .error .valueError

/-- Relative intensities of the images in the serial calculation, /repo/ledsa/analysis/ExtinctionCoefficients.py 80-82. -/
noncomputable def serialFloats (t : ImgData ℝ) (ref : List ℝ) : Except PyErr (List (List NpFloat)) :=
  (groupKeys (t.map (·.1))).mapM fun i => npQuotients (imgValues t i) ref

/-- Relative intensities of the images in the parallel calculation, /repo/ledsa/analysis/ExtinctionCoefficients.py 97-98. -/
noncomputable def poolFloats (t : ImgData ℝ) (ref : List ℝ) : Except PyErr (List (List NpFloat)) :=
  match toArray t with
  | .error e => .error e
  | .ok a => a.mapM fun row => npQuotients row ref

/-- `set_all_member_variables` and the relative intensities, /repo/ledsa/analysis/ExtinctionCoefficients.py 73-118. -/
noncomputable def ArrayAnalysis.floatInput (a : ArrayAnalysis) (data : Except PyErr (ImgData ℝ)) :
    Except PyErr (List (Option (List ℝ)) × List (List NpFloat)) := do
  let leds ← ledPositions a.coordinates a.ids
  let data ← data
  let ref := refIntensities a.ref data
  let rels ← if a.parallel then poolFloats data ref else serialFloats data ref
  .ok (distanceArray a.cam (Ledsa.layers a.lo a.hi a.layers) leds, rels)

/-- `calc_coefficients_of_img`, /repo/ledsa/analysis/ExtinctionCoefficientsLinear.py 43-92: what may be the result `r` for one image. `nnls` rejects
`nan` in the distances and in the optical depths. Clipping twice is clipping once. -/
def FloatImage (n : ℕ) (rows : List (Option (List ℝ))) (lam : ℝ) (rel : List NpFloat) (r : Except PyErr (Fin n → ℝ)) : Prop :=
  match rel.mapM NpFloat.clip with
  | none => r = .error .valueError
  | some clipped => LinearImage n rows lam clipped r

/-- `calc_and_set_coefficients(_mp)` of a new object, /repo/ledsa/analysis/ExtinctionCoefficients.py 73-103, for the loaded values of the array. An
exception of one image ends the calculation. -/
def ArrayAnalysis.FloatResult (a : ArrayAnalysis) (data : Except PyErr (ImgData ℝ)) (r : Except PyErr (List (Fin a.layers → ℝ))) : Prop :=
  match a.floatInput data with
  | .error e => r = .error e
  | .ok (rows, rels) => ∃ rs, List.Forall₂ (FloatImage a.layers rows a.lam) rels rs ∧ r = rs.mapM id

end Ledsa
