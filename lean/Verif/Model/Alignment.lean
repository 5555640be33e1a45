import Verif.Model.Step2
import Verif.Model.Step3
import Verif.Model.Geometry
/-
Model of how the analysis combines geometry and measured values of one LED array:
`analysis/Experiment.py` 273-313, `analysis/ExtinctionCoefficients.py` 73-86, 120-133, 161-175.
-/
namespace Ledsa

/-- `get_led_positions`, /repo/ledsa/analysis/Experiment.py 298-313: rows of the coordinate table by row number. -/
def ledPositions {C : Type} (table : List C) (ids : List Nat) : Except PyErr (List C) :=
  match ids.mapM (fun i => table[i]?) with
  | none => .error .indexError
  | some l => .ok l

/-- `calc_distance_array`, /repo/ledsa/analysis/ExtinctionCoefficients.py 161-175: one row per LED, LEDs reversed; `dist` is
the distance calculation of one LED. -/
def distanceRows {C D : Type} (dist : C → D) (leds : List C) : List D := leds.reverse.map dist

/-- The values of one image and one array in the order of the solver input,
/repo/ledsa/core/file_handling.py 259 (rows sorted by id), /repo/ledsa/analysis/ExtinctionCoefficients.py 131 (rows of the
array) and 81-82. -/
def arrayValues {M : Type} (rows : List (Nat × Nat × M)) (n : Nat) : List (Nat × M) :=
  ((sortRows rows).filter (fun x => x.2.1 = n)).map fun x => (x.1, x.2.2)

end Ledsa
