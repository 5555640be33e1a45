import Verif.Model.Geometry
import Verif.Model.Step3
import Verif.Model.Solver
import Mathlib.Analysis.SpecialFunctions.Trigonometric.Basic
/-
The experiment and the photos that the acceptance test makes up,
/repo/ledsa/tests/AcceptanceTests/TestExperiment.py and /repo/ledsa/tests/AcceptanceTests/LedsaATestLibrary.py. The distances of
`TestExperiment` (lines 76-126) are computed by the same statements as those of `Experiment`, so that `distPerLayer` is used for both.
The compression of the photos (JPEG) and the EXIF entries are not modelled.
-/
namespace Ledsa

/-- `calc_led_transmission`, /repo/ledsa/tests/AcceptanceTests/TestExperiment.py 128-131. A missing distance (`None`) times an array
raises `TypeError`; `none` stands for `nan`. Coefficients and layers of different number raise `ValueError` (a single
coefficient for several layers, which numpy would repeat, is not modelled). -/
noncomputable def testTransmission (cam led : P3) (ls : List Layer) (σ : List ℝ) : Except PyErr (Option ℝ) :=
  match distPerLayer cam led ls with
  | .missing => .error .typeError
  | .nans => .ok none
  | .dists ds => if ds.length = σ.length then .ok (some (Real.exp (-(List.zipWith (· * ·) ds σ).sum))) else .error .valueError

/-- `calc_color_val`, /repo/ledsa/tests/AcceptanceTests/LedsaATestLibrary.py 209-212, with the density of the normal distribution written out;
`size` is 20 in all calls. -/
noncomputable def testSpot (x y : ℕ) : ℝ :=
  let dist := Real.sqrt (((10 : ℝ) - x) ^ 2 + ((10 : ℝ) - y) ^ 2)
  Real.exp (-(dist / (17 / 10)) ^ 2 / 2) / Real.sqrt (2 * Real.pi) * 350 * (17 / 10)

/-- A float assigned to an element of an array of type `uint8`: decimals are cut off and only the last eight bits stay. -/
noncomputable def toUint8 (v : ℝ) : ℕ := ⌊v⌋₊ % 256

/-- `add_led`, /repo/ledsa/tests/AcceptanceTests/LedsaATestLibrary.py 197-206, one of the three equal channels. -/
noncomputable def addTestLed (px : ℕ → ℕ → ℕ) (xPos yPos : ℕ) (t : ℝ) : ℕ → ℕ → ℕ := fun i j =>
  if xPos - 10 ≤ i ∧ i < xPos + 10 ∧ yPos - 10 ≤ j ∧ j < yPos + 10 then toUint8 (testSpot (i - (xPos - 10)) (j - (yPos - 10)) * t) else px i j

/-- The loop of `create_img_array`, /repo/ledsa/tests/AcceptanceTests/LedsaATestLibrary.py 192-193, from LED `k` on. -/
noncomputable def drawTestLeds : List ℝ → ℕ → (ℕ → ℕ → ℕ) → ℕ → ℕ → ℕ
  | [], _, px => px
  | t :: ts, k, px => drawTestLeds ts (k + 1) (addTestLed px ((1 + k) * 50) 25 t)

/-- `create_img_array`, /repo/ledsa/tests/AcceptanceTests/LedsaATestLibrary.py 190-194, with the values as numbers. -/
noncomputable def testImage (ts : List ℝ) : Image ℝ where
  h := ts.length * 50 + 50
  w := 50
  px i j := (drawTestLeds ts 0 (fun _ _ => 0) i j : ℕ)

/-- `create_test_image`, /repo/ledsa/tests/AcceptanceTests/LedsaATestLibrary.py 170-174: the transmissions of all LEDs of the experiment, in
reversed order because photos begin at the top. `none` if one of them is no number. -/
noncomputable def testPhoto (cam : P3) (ls : List Layer) (leds : List P3) (σ : List ℝ) : Except PyErr (Option (Image ℝ)) := do
  let ts ← leds.mapM fun led => testTransmission cam led ls σ
  .ok (ts.reverse.mapM id |>.map testImage)

end Ledsa
