import Verif.Model.Coordinates
import Mathlib.Analysis.SpecialFunctions.Trigonometric.Arctan
/-
Model of the geometry in `analysis/Experiment.py` over the real numbers. Rounding is not modelled; infinities and `nan`
arise only from a zero horizontal distance and are modelled explicitly.
-/
namespace Ledsa

/-- `np.linspace(bottom, top, amount + 1)[i]`, /repo/ledsa/analysis/Experiment.py 56. -/
noncomputable def border (lo hi : ℝ) (n i : Nat) : ℝ := lo + i * ((hi - lo) / n)

/-- `Layer`, /repo/ledsa/analysis/Experiment.py 11-21. -/
structure Layer where
  bottom : ℝ
  top : ℝ

/-- `Layer.__contains__`, /repo/ledsa/analysis/Experiment.py 31-33. -/
def Layer.Contains (l : Layer) (z : ℝ) : Prop := l.bottom ≤ z ∧ z < l.top

/-- `Layers.__post_init__`, /repo/ledsa/analysis/Experiment.py 54-58. -/
noncomputable def layers (lo hi : ℝ) (n : Nat) : List Layer :=
  (List.range n).map fun i => ⟨border lo hi n i, border lo hi n (i + 1)⟩

/-- `horizontal_dist`, /repo/ledsa/analysis/Experiment.py 179. -/
noncomputable def horizontalDist (cam led : P3) : ℝ := Real.sqrt ((cam.1 - led.1) ^ 2 + (cam.2.1 - led.2.1) ^ 2)

/-- `alpha`, /repo/ledsa/analysis/Experiment.py 180. A zero horizontal distance gives ±∞, whose arctangent is ±π/2; `0/0`
gives `nan` (`none`). -/
noncomputable def alpha (cam led : P3) : Option ℝ :=
  if horizontalDist cam led = 0 then
    if cam.2.2 < led.2.2 then some (Real.pi / 2)
    else if led.2.2 < cam.2.2 then some (-(Real.pi / 2)) else none
  else some (Real.arctan ((led.2.2 - cam.2.2) / horizontalDist cam led))

open Classical in
/-- `calc_traversed_dist_in_plane`, /repo/ledsa/analysis/Experiment.py 199-206. -/
noncomputable def distInPlane (cam led : P3) (ls : List Layer) : List ℝ :=
  ls.map fun l => if l.bottom ≤ cam.2.2 ∧ cam.2.2 < l.top then horizontalDist cam led else 0

/-- `calc_traversed_height_in_layer`, /repo/ledsa/analysis/Experiment.py 241-248. -/
noncomputable def heightInLayer (camZ ledZ bot top : ℝ) : ℝ :=
  let topEnd := max camZ ledZ
  let botEnd := min camZ ledZ
  let b := max botEnd bot
  let t := min topEnd top
  let h := t - b
  if h < 0 then 0 else h

/-- `calc_traversed_dist_per_layer_with_nonzero_alpha`, /repo/ledsa/analysis/Experiment.py 220-226. -/
noncomputable def distNonzeroAlpha (a : ℝ) (cam led : P3) (ls : List Layer) : List ℝ :=
  ls.map fun l => |heightInLayer cam.2.2 led.2.2 l.bottom l.top / Real.sin a|

/-- Euclidean distance, /repo/ledsa/analysis/Experiment.py 263-265. -/
noncomputable def euclid (p q : P3) : ℝ :=
  Real.sqrt ((p.1 - q.1) ^ 2 + (p.2.1 - q.2.1) ^ 2 + (p.2.2 - q.2.2) ^ 2)

/-- Result of `calc_traversed_dist_per_layer`: `None`, an array of `nan`, or numbers. -/
inductive LayerDists where
  | missing
  | nans
  | dists (l : List ℝ)

open Classical in
/-- `distance_calculation_is_consistent`, /repo/ledsa/analysis/Experiment.py 263-271, and the replacement by `None` in lines
186-188. -/
noncomputable def checked (cam led : P3) (ds : List ℝ) : LayerDists :=
  if |ds.sum - euclid cam led| > 1 / 10 ^ 6 then .missing else .dists ds

open Classical in
/-- `calc_traversed_dist_per_layer`, /repo/ledsa/analysis/Experiment.py 170-188. A `nan` angle is not equal to 0; `nan`
distances pass the check because comparisons with `nan` are false. -/
noncomputable def distPerLayer (cam led : P3) (ls : List Layer) : LayerDists :=
  match alpha cam led with
  | none => .nans
  | some a => if a = 0 then checked cam led (distInPlane cam led ls) else checked cam led (distNonzeroAlpha a cam led ls)

end Ledsa
