import Verif.Model.Geometry
import Verif.Model.Solver
import Mathlib.Data.Int.Log
import Mathlib.Algebra.Order.Round
import Mathlib.Data.Sign.Basic
/-
Model of the arithmetic of the linear analysis in floating point: `analysis/Experiment.py`, `analysis/ExtinctionCoefficients.py`
and `analysis/ExtinctionCoefficientsLinear.py` with a rounding after every operation. The functions are those of `Model/Geometry`,
`Model/Extinction` and `Model/Solver`, operation by operation. Overflow and numbers below the normal range are not modelled.
-/
namespace Ledsa

/-- A floating point arithmetic. `rnd` is the rounding of the basic operations and of the square root, with relative error `u`; the
other functions come from a library, with relative error `w`. -/
structure Machine where
  u : ℝ
  w : ℝ
  rnd : ℝ → ℝ
  square : ℝ → ℝ
  sin : ℝ → ℝ
  arctan : ℝ → ℝ
  log : ℝ → ℝ
  /-- arctangent of infinity -/
  halfPi : ℝ
  u_nonneg : 0 ≤ u
  u_small : u ≤ 1 / 1000
  w_nonneg : 0 ≤ w
  w_small : w ≤ 1 / 1000
  rnd_err : ∀ x, |rnd x - x| ≤ u * |x|
  rnd_mono : Monotone rnd
  rnd_idem : ∀ x, rnd (rnd x) = rnd x
  rnd_neg : ∀ x, rnd (-x) = -rnd x
  rnd_double : ∀ x, rnd (2 * x) = 2 * rnd x
  square_err : ∀ x, |square x - x ^ 2| ≤ w * x ^ 2
  sin_err : ∀ x, |sin x - Real.sin x| ≤ w * |Real.sin x|
  arctan_err : ∀ x, |arctan x - Real.arctan x| ≤ w * |Real.arctan x|
  log_err : ∀ x, |log x - Real.log x| ≤ w * |Real.log x|
  halfPi_err : |halfPi - Real.pi / 2| ≤ w * (Real.pi / 2)

namespace Machine

variable (M : Machine)

/-- `np.linspace(bottom, top, amount + 1)[i]`, /repo/ledsa/analysis/Experiment.py 56: multiples of the step, and the last one is
the end itself. -/
noncomputable def border (lo hi : ℝ) (n i : ℕ) : ℝ :=
  if i = n then hi else M.rnd (M.rnd (i * M.rnd (M.rnd (hi - lo) / n)) + lo)

/-- `Layers.__post_init__`, /repo/ledsa/analysis/Experiment.py 54-58. -/
noncomputable def layers (lo hi : ℝ) (n : ℕ) : List Layer :=
  (List.range n).map fun i => ⟨M.border lo hi n i, M.border lo hi n (i + 1)⟩

/-- `horizontal_dist`, /repo/ledsa/analysis/Experiment.py 179. -/
noncomputable def horizontalDist (cam led : P3) : ℝ :=
  M.rnd (Real.sqrt (M.rnd (M.square (M.rnd (cam.1 - led.1)) + M.square (M.rnd (cam.2.1 - led.2.1)))))

/-- `alpha`, /repo/ledsa/analysis/Experiment.py 180. -/
noncomputable def alpha (cam led : P3) : Option ℝ :=
  if M.horizontalDist cam led = 0 then
    if 0 < M.rnd (led.2.2 - cam.2.2) then some M.halfPi
    else if M.rnd (led.2.2 - cam.2.2) < 0 then some (-M.halfPi) else none
  else some (M.arctan (M.rnd (M.rnd (led.2.2 - cam.2.2) / M.horizontalDist cam led)))

open Classical in
/-- `calc_traversed_dist_in_plane`, /repo/ledsa/analysis/Experiment.py 199-206. -/
noncomputable def distInPlane (cam led : P3) (ls : List Layer) : List ℝ :=
  ls.map fun l => if l.bottom ≤ cam.2.2 ∧ cam.2.2 < l.top then M.horizontalDist cam led else 0

/-- `calc_traversed_height_in_layer`, /repo/ledsa/analysis/Experiment.py 241-248. -/
noncomputable def heightInLayer (camZ ledZ bot top : ℝ) : ℝ :=
  let b := max (min camZ ledZ) bot
  let t := min (max camZ ledZ) top
  let h := M.rnd (t - b)
  if h < 0 then 0 else h

/-- `calc_traversed_dist_per_layer_with_nonzero_alpha`, /repo/ledsa/analysis/Experiment.py 220-226. -/
noncomputable def distNonzeroAlpha (a : ℝ) (cam led : P3) (ls : List Layer) : List ℝ :=
  ls.map fun l => |M.rnd (M.heightInLayer cam.2.2 led.2.2 l.bottom l.top / M.sin a)|

/-- Euclidean distance, /repo/ledsa/analysis/Experiment.py 263-265. -/
noncomputable def euclid (p q : P3) : ℝ :=
  M.rnd (Real.sqrt (M.rnd (M.rnd (M.square (M.rnd (p.1 - q.1)) + M.square (M.rnd (p.2.1 - q.2.1))) +
    M.square (M.rnd (p.2.2 - q.2.2)))))

/-- `np.sum`: the numbers are added in some order and grouping. -/
inductive Sum : List ℝ → ℝ → Prop
  | one (x : ℝ) : Sum [x] x
  | add {l m k : List ℝ} {a b : ℝ} : Sum l a → Sum m b → (l ++ m).Perm k → Sum k (M.rnd (a + b))

open Classical in
/-- `distance_calculation_is_consistent`, /repo/ledsa/analysis/Experiment.py 263-271, for the sum `s` of the distances. -/
noncomputable def checked (cam led : P3) (s : ℝ) (ds : List ℝ) : LayerDists :=
  if |M.rnd (s - M.euclid cam led)| > M.rnd (1 / 10 ^ 6) then .missing else .dists ds

open Classical in
/-- The distances before the check, /repo/ledsa/analysis/Experiment.py 179-184. -/
noncomputable def rawDistances (cam led : P3) (ls : List Layer) : Option (List ℝ) :=
  (M.alpha cam led).map fun a => if a = 0 then M.distInPlane cam led ls else M.distNonzeroAlpha a cam led ls

/-- `calc_traversed_dist_per_layer`, /repo/ledsa/analysis/Experiment.py 170-188: what may be the result. -/
def DistResult (cam led : P3) (ls : List Layer) (r : LayerDists) : Prop :=
  match M.rawDistances cam led ls with
  | none => r = .nans
  | some ds => ∃ s, M.Sum ds s ∧ r = M.checked cam led s ds

/-- One step of the sum of `groupby(...).mean()` in pandas (compensated summation), used in
/repo/ledsa/analysis/ExtinctionCoefficients.py 189: sum and compensation. -/
noncomputable def kahanStep (p : ℝ × ℝ) (v : ℝ) : ℝ × ℝ :=
  let y := M.rnd (v - p.2)
  let t := M.rnd (p.1 + y)
  (t, M.rnd (M.rnd (t - p.1) - y))

/-- `groupby(level='led_id').mean()` of the values of one LED, /repo/ledsa/analysis/ExtinctionCoefficients.py 189. -/
noncomputable def mean (vs : List ℝ) : ℝ := M.rnd ((vs.foldl M.kahanStep (0, 0)).1 / vs.length)

/-- `single_img_array / self.ref_intensities`, /repo/ledsa/analysis/ExtinctionCoefficients.py 81 and 97, for one LED with the
values `refs` in the reference images. -/
noncomputable def relIntensity (refs : List ℝ) (v : ℝ) : ℝ := M.rnd (v / M.mean refs)

/-- `optical_depths`, /repo/ledsa/analysis/ExtinctionCoefficientsLinear.py 55-60. -/
noncomputable def opticalDepth (x : ℝ) : ℝ := -M.log (min (max x (M.rnd (1 / 10 ^ 10))) 1)

/-- `A_aug`, /repo/ledsa/analysis/ExtinctionCoefficientsLinear.py 68-83. -/
noncomputable def augMatrix {m n : ℕ} (A : Fin m → Fin n → ℝ) (lam : ℝ) : Fin m ⊕ Fin (regRows n) → Fin n → ℝ
  | .inl led, l => A led l
  | .inr i, l => M.rnd (M.rnd (Real.sqrt lam) * regEntry n i l)

/-- `b_aug`, /repo/ledsa/analysis/ExtinctionCoefficientsLinear.py 86. -/
noncomputable def augRhs {m : ℕ} (n : ℕ) (rel : Fin m → ℝ) : Fin m ⊕ Fin (regRows n) → ℝ
  | .inl led => M.opticalDepth (rel led)
  | .inr _ => 0

/-- What is assumed of `scipy.optimize.nnls` in floating point: the result is not negative, and its residual is the least possible
up to `ε`. -/
structure Solution {m n : ℕ} (A : Fin m → Fin n → ℝ) (lam ε : ℝ) (rel : Fin m → ℝ) (x : Fin n → ℝ) : Prop where
  nonneg : ∀ l, 0 ≤ x l
  almost : ∀ y : Fin n → ℝ, (∀ l, 0 ≤ y l) →
    residual (M.augMatrix A lam) (M.augRhs n rel) x ≤ residual (M.augMatrix A lam) (M.augRhs n rel) y + ε

end Machine

/-! ### Binary numbers with 53 digits -/

/-- Distance of neighbouring numbers with 53 binary digits at a positive number. -/
noncomputable def spacing (x : ℝ) : ℝ := (2 : ℝ) ^ (Int.log 2 x - 52)

/-- A positive number rounded to 53 binary digits. -/
noncomputable def roundPos (x : ℝ) : ℝ := round (x / spacing x) * spacing x

/-- A number rounded to 53 binary digits, as in IEEE double precision without limits of the exponent. Ties go away from zero. -/
noncomputable def roundDouble (x : ℝ) : ℝ := SignType.sign x * roundPos |x|

end Ledsa
