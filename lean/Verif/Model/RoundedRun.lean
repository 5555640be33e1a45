import Verif.Model.Rounding
import Verif.Model.Pipeline
/-
Model of the analysis of an LED array in floating point: the functions of `Model/Pipeline` and `Model/Extinction` with the
operations of `Model/Rounding`. Numbers are read from files with a relative error.
-/
namespace Ledsa

/-- A position read from the coordinates file, /repo/ledsa/analysis/Experiment.py 285-296. -/
def readPos (read : ℝ → ℝ) (p : P3) : P3 := (read p.1, read p.2.1, read p.2.2)

/-- The analysis with positions as read. -/
def ArrayAnalysis.readBy (a : ArrayAnalysis) (read : ℝ → ℝ) : ArrayAnalysis :=
  { a with coordinates := a.coordinates.map (readPos read) }

/-- The values as read, /repo/ledsa/analysis/ExtinctionCoefficients.py 130-133. -/
def readData (read : ℝ → ℝ) (data : Except PyErr (ImgData ℝ)) : Except PyErr (ImgData ℝ) :=
  data.map fun d => d.map fun r => (r.1, r.2.1, read r.2.2)

namespace Machine

variable (M : Machine)

/-- `calc_and_set_ref_intensities`, /repo/ledsa/analysis/ExtinctionCoefficients.py 177-191. -/
noncomputable def refIntensities (c : RefChoice) (t : ImgData ℝ) : List ℝ :=
  (groupKeys ((refData c t).map (·.2.1))).map fun l => M.mean (ledValues (refData c t) l)

/-- Division of one-dimensional numpy arrays with broadcasting. -/
noncomputable def npDivide (a r : List ℝ) : Except PyErr (List ℝ) :=
  if a.length = r.length then .ok (a.zipWith (fun x y => M.rnd (x / y)) r)
  else match a, r with
    | [x], r => .ok (r.map fun y => M.rnd (x / y))
    | a, [y] => .ok (a.map fun x => M.rnd (x / y))
    | _, _ => .error .valueError

/-- Relative intensities of all images in the serial calculation, /repo/ledsa/analysis/ExtinctionCoefficients.py 80-82. -/
noncomputable def serialRel (t : ImgData ℝ) (ref : List ℝ) : Except PyErr (List (List ℝ)) :=
  (groupKeys (t.map (·.1))).mapM fun i => M.npDivide (imgValues t i) ref

/-- Relative intensities of all images in the parallel calculation, /repo/ledsa/analysis/ExtinctionCoefficients.py 97-98. -/
noncomputable def poolRel (t : ImgData ℝ) (ref : List ℝ) : Except PyErr (List (List ℝ)) :=
  match toArray t with
  | .error e => .error e
  | .ok a => a.mapM fun row => M.npDivide row ref

/-- `calc_distance_array`, /repo/ledsa/analysis/ExtinctionCoefficients.py 161-175: what may be the rows. Missing distances become a
row of `nan`, here `none`. -/
def DistanceArray (cam : P3) (ls : List Layer) (leds : List P3) (rows : List (Option (List ℝ))) : Prop :=
  List.Forall₂ (fun led row => ∃ r, M.DistResult cam led ls r ∧ row = match r with
    | .dists d => some d
    | _ => none) (distanceRows id leds) rows

/-- `calc_coefficients_of_img`, /repo/ledsa/analysis/ExtinctionCoefficientsLinear.py 43-92: what may be the result for one image if
`nnls` reaches the least residual up to `ε`. -/
def LinearImage (n : ℕ) (rows : List (Option (List ℝ))) (lam ε : ℝ) (rel : List ℝ) (r : Except PyErr (Fin n → ℝ)) : Prop :=
  match rows.mapM id with
  | none => r = .error .valueError
  | some A =>
    if rel.length = A.length then
      ∃ σ, r = .ok σ ∧ M.Solution (distEntry A) lam ε (fun (i : Fin A.length) => rel.getD i 0) σ
    else r = .error .valueError

/-- `calc_and_set_coefficients(_mp)` of a new object, /repo/ledsa/analysis/ExtinctionCoefficients.py 73-118: what may be the
coefficients of all images for the loaded values of the array. -/
def ArrayResult (a : ArrayAnalysis) (ε : ℝ) (data : Except PyErr (ImgData ℝ)) (r : Except PyErr (List (Fin a.layers → ℝ))) : Prop :=
  match ledPositions a.coordinates a.ids with
  | .error e => r = .error e
  | .ok leds => match data with
    | .error e => r = .error e
    | .ok d =>
      match if a.parallel then M.poolRel d (M.refIntensities a.ref d) else M.serialRel d (M.refIntensities a.ref d) with
      | .error e => r = .error e
      | .ok rels => ∃ rows rs, M.DistanceArray a.cam (M.layers a.lo a.hi a.layers) leds rows ∧
          List.Forall₂ (M.LinearImage a.layers rows a.lam ε) rels rs ∧ r = rs.mapM id

end Machine

end Ledsa
