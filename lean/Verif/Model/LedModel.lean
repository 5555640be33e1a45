import Mathlib.Analysis.SpecialFunctions.Complex.Arg
import Mathlib.Analysis.SpecialFunctions.Sqrt
/-
Model of the LED spot model, its cost function and the recorded centre, over the real numbers. Floating point rounding
and signed zeros are not modelled. Division by zero is `0` here (numpy: `inf`/`nan`); the theorems exclude it.
-/
namespace Ledsa

/-- `np.arctan2(y, x)`. -/
noncomputable def arctan2 (y x : ℝ) : ℝ := Complex.arg ⟨x, y⟩

/-- The eight fit parameters, /repo/ledsa/data_extraction/model.py 47. -/
structure SpotParams where
  x0 : ℝ
  y0 : ℝ
  dx : ℝ
  dy : ℝ
  a : ℝ
  alpha : ℝ
  wx : ℝ
  wy : ℝ

/-- `phi`, /repo/ledsa/data_extraction/model.py 96. -/
noncomputable def spotPhi (p : SpotParams) (x y : ℝ) : ℝ := arctan2 (y - p.y0) (x - p.x0) + Real.pi + p.alpha

/-- `dr` and `dw`, /repo/ledsa/data_extraction/model.py 98-99. -/
noncomputable def ellipseRadius (a b phi : ℝ) : ℝ :=
  a * b / Real.sqrt ((a * Real.cos phi) ^ 2 + (b * Real.sin phi) ^ 2)

/-- `led_model`, /repo/ledsa/data_extraction/model.py 60-103. -/
noncomputable def ledModel (p : SpotParams) (x y : ℝ) : ℝ :=
  let r := Real.sqrt ((x - p.x0) ^ 2 + (y - p.y0) ^ 2)
  let phi := spotPhi p x y
  p.a * (1 / 2) * (1 - Real.tanh ((r - ellipseRadius p.dx p.dy phi) / ellipseRadius p.wx p.wy phi))

/-- `mesh = np.meshgrid(x, y)` with `x = linspace(0.5, nx - 0.5, nx)`, `y` alike,
/repo/ledsa/data_extraction/step_3_functions.py 237-239: at array row `i`, column `j` the first mesh array holds `x[j]`,
the second `y[i]`. -/
noncomputable def meshAt (i j : ℕ) : ℝ × ℝ := ((j : ℝ) + 1 / 2, (i : ℝ) + 1 / 2)

/-- The model array that is compared with `search_area[i, j]`, /repo/ledsa/data_extraction/model.py 41. -/
noncomputable def modelPixel (p : SpotParams) (i j : ℕ) : ℝ := ledModel p (meshAt i j).1 (meshAt i j).2

/-- `penalty`, /repo/ledsa/data_extraction/model.py 43-57; `nx`, `ny` are the largest mesh values. -/
noncomputable def penalty (nx ny : ℝ) (p : SpotParams) : ℝ :=
  (if p.x0 < 0 ∨ p.x0 > nx ∨ p.y0 < 0 ∨ p.y0 > ny then 1000 * |p.x0 - nx| + 1000 * |p.y0 - ny| else 0) +
  (if p.dx < 1 ∨ p.dy < 1 then 1 / |p.dx| ^ 4 + 1 / |p.dy| ^ 4 else 0) +
  (if p.wx < 1 / 1000 ∨ p.wy < 1 / 1000 then |p.wx - 1 / 1000| * 1000000 + |p.wy - 1 / 1000| * 1000000 else 0) +
  (if |p.alpha| > Real.pi / 2 then (|p.alpha| - Real.pi / 2) * 1000000 else 0)

/-- `data[data < 0.05 * np.max(data)] = 0`, /repo/ledsa/data_extraction/model.py 38, with the maximum `m`. -/
noncomputable def threshold (m v : ℝ) : ℝ := if v < m / 20 then 0 else v

/-- `target_function` for a square search area of `n` rows and columns with maximum `m`,
/repo/ledsa/data_extraction/model.py 7-57. -/
noncomputable def targetFunction (n : ℕ) (data : ℕ → ℕ → ℝ) (m : ℝ) (p : SpotParams) : ℝ :=
  Real.sqrt (∑ i ∈ Finset.range n, ∑ j ∈ Finset.range n, (threshold m (data i j) - modelPixel p i j) ^ 2) / (n * n) +
    penalty (n - 1 / 2) (n - 1 / 2) p

/-- The recorded centre of an LED whose search area is centred at row `r`, column `c`,
/repo/ledsa/data_extraction/step_3_functions.py 148-149. -/
noncomputable def recordedCentre (r c : ℝ) (R : ℕ) (p : SpotParams) : ℝ × ℝ := (p.x0 + r - R, p.y0 + c - R)

end Ledsa
