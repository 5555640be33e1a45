import Verif.Model.RoundedRun
import Verif.Model.NonlinearRun
/-
Model of the nonlinear analysis of an LED array in floating point: the functions of `Model/RoundedRun` with the solver of
`Model/NonlinearRun`. Distances, reference values and relative intensities are rounded; the solver minimises the cost function for the
rounded distances and intensities, and `tol` covers the roundings of the cost function itself.
-/
namespace Ledsa

namespace Machine

variable (M : Machine)

/-- `calc_and_set_coefficients(_mp)` of a new object with the nonlinear solver, /repo/ledsa/analysis/ExtinctionCoefficients.py 73-118 with
/repo/ledsa/analysis/ExtinctionCoefficientsNonLinear.py 59-82: what may be the coefficients of all images for the loaded values of the array. -/
def NonlinearArrayResult (a : ArrayAnalysis) (o : NonlinearOptions) (data : Except PyErr (ImgData ℝ))
    (r : Except PyErr (List (Fin a.layers → ℝ))) : Prop :=
  match ledPositions a.coordinates a.ids with
  | .error e => r = .error e
  | .ok leds => match data with
    | .error e => r = .error e
    | .ok d =>
      match if a.parallel then M.poolRel d (M.refIntensities a.ref d) else M.serialRel d (M.refIntensities a.ref d) with
      | .error e => r = .error e
      | .ok rels => ∃ rows rs, M.DistanceArray a.cam (M.layers a.lo a.hi a.layers) leds rows ∧
          List.Forall₂ (NonlinearImage a.layers rows o) rels rs ∧ r = rs.mapM id

/-- What one passage of the loop in /repo/ledsa/core/parser_arguments_run.py 223-248 may calculate with the nonlinear solver and floating point:
the coefficients as lists, `data` are the values of the LED array in the table of the channel. -/
def NonlinearCalculates (a : ArrayAnalysis) (o : NonlinearOptions) (data : Except PyErr (ImgData ℝ)) (r : Except PyErr (List (List ℝ))) : Prop :=
  ∃ r', M.NonlinearArrayResult a o data r' ∧ r = r'.map fun coefs => coefs.map List.ofFn

end Machine

end Ledsa
