import Verif.Model.Batch
import Verif.Model.RoundedRun
import Verif.Model.ImageInfos
/-
Model of how the analysis command combines the analyses of the single LED arrays: what the calculation for each pair of LED array and channel returns,
and where the times in the saved files come from.
-/
namespace Ledsa

/-- `_get_experiment_times_from_image_infos_file`, /repo/ledsa/analysis/ExtinctionCoefficients.py 247-253 (without averaging): the last column of
`image_infos_analysis.csv`. Only whole seconds, as step 0 writes them, are modelled. -/
def experimentTimes (rows : List InfoRow) : Except PyErr (List ℤ) := rows.mapM fun r => pyInt r.expTime

/-- What one passage of the loop in /repo/ledsa/core/parser_arguments_run.py 223-248 may calculate, with the linear solver and floating point: the
coefficients of `Machine.ArrayResult` as lists, `data` are the values of the LED array in the table of the channel. -/
def Machine.Calculates (M : Machine) (a : ArrayAnalysis) (ε : ℝ) (data : Except PyErr (ImgData ℝ)) (r : Except PyErr (List (List ℝ))) : Prop :=
  ∃ r', M.ArrayResult a ε data r' ∧ r = r'.map fun coefs => coefs.map List.ofFn

end Ledsa
