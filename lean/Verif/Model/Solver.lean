import Mathlib.Analysis.SpecialFunctions.Log.Basic
import Mathlib.Analysis.SpecialFunctions.Sqrt
import Mathlib.Algebra.BigOperators.Fin
/-
Model of the two solvers for extinction coefficients, over the real numbers (no rounding). `m` LEDs, `n` layers; a
distance matrix has one row per LED. The numerical minimisers of scipy are not modelled: `nnls` is described by what its
result satisfies (`IsNnls`), `minimize(method='TNC')` only by its objective.
-/
namespace Ledsa

/-! ### Nonlinear solver -/

/-- The loop over the layers in `calc_intensities`, /repo/ledsa/analysis/ExtinctionCoefficientsNonLinear.py 100-105. -/
noncomputable def rayIntensity {n : ℕ} (σ d : Fin n → ℝ) : ℝ :=
  (List.finRange n).foldl (fun acc l => acc * Real.exp (-σ l * d l)) 1

/-- `calc_intensities`, /repo/ledsa/analysis/ExtinctionCoefficientsNonLinear.py 83-108. -/
noncomputable def calcIntensities {m n : ℕ} (A : Fin m → Fin n → ℝ) (σ : Fin n → ℝ) : Fin m → ℝ :=
  fun led => rayIntensity σ (A led)

/-- Element `i` of `sigmas[0:-2] - 2 * sigmas[1:-1] + sigmas[2:]`,
/repo/ledsa/analysis/ExtinctionCoefficientsNonLinear.py 131. -/
def secondDiff {n : ℕ} (σ : Fin n → ℝ) (i : Fin (n - 2)) : ℝ :=
  σ ⟨i, by omega⟩ - 2 * σ ⟨i + 1, by omega⟩ + σ ⟨i + 2, by omega⟩

/-- `rmse`, /repo/ledsa/analysis/ExtinctionCoefficientsNonLinear.py 127. -/
noncomputable def rmse {m n : ℕ} (A : Fin m → Fin n → ℝ) (target : Fin m → ℝ) (σ : Fin n → ℝ) : ℝ :=
  Real.sqrt (∑ led, (calcIntensities A σ led - target led) ^ 2) / m

/-- `curvature`, /repo/ledsa/analysis/ExtinctionCoefficientsNonLinear.py 131-132, for `m` LEDs. -/
noncomputable def curvature {n : ℕ} (m : ℕ) (wCurv : ℝ) (σ : Fin n → ℝ) : ℝ :=
  (∑ i, |secondDiff σ i|) * m * 2 * wCurv

/-- `preference`, /repo/ledsa/analysis/ExtinctionCoefficientsNonLinear.py 135. -/
noncomputable def preference {n : ℕ} (wPref : ℝ) (σ : Fin n → ℝ) : ℝ := (∑ l, σ l) / n * wPref

/-- `cost_function`, /repo/ledsa/analysis/ExtinctionCoefficientsNonLinear.py 110-138. -/
noncomputable def costFunction {m n : ℕ} (A : Fin m → Fin n → ℝ) (wCurv wPref : ℝ) (target : Fin m → ℝ)
    (σ : Fin n → ℝ) : ℝ :=
  rmse A target σ + curvature m wCurv σ + preference wPref σ

/-! ### Linear solver -/

/-- `np.clip(rel_intensities, 1e-10, 1.0)`, /repo/ledsa/analysis/ExtinctionCoefficientsLinear.py 55-56. -/
noncomputable def clip (x : ℝ) : ℝ := min (max x (1 / 10 ^ 10)) 1

/-- `optical_depths`, /repo/ledsa/analysis/ExtinctionCoefficientsLinear.py 60. -/
noncomputable def opticalDepth (x : ℝ) : ℝ := -Real.log (clip x)

/-- Number of rows of `L`, /repo/ledsa/analysis/ExtinctionCoefficientsLinear.py 68-77. -/
def regRows (n : ℕ) : ℕ := if 3 ≤ n then n - 2 else n

/-- Entries of `L`, /repo/ledsa/analysis/ExtinctionCoefficientsLinear.py 68-77. -/
def regEntry (n : ℕ) (i l : ℕ) : ℝ :=
  if 3 ≤ n then
    if l = i then 1 else if l = i + 1 then -2 else if l = i + 2 then 1 else 0
  else if i = l then 1 else 0

/-- `A_aug`, /repo/ledsa/analysis/ExtinctionCoefficientsLinear.py 79-83. -/
noncomputable def augMatrix {m n : ℕ} (A : Fin m → Fin n → ℝ) (lam : ℝ) : Fin m ⊕ Fin (regRows n) → Fin n → ℝ
  | .inl led, l => A led l
  | .inr i, l => Real.sqrt lam * regEntry n i l

/-- `b_aug`, /repo/ledsa/analysis/ExtinctionCoefficientsLinear.py 86. -/
noncomputable def augRhs {m : ℕ} (n : ℕ) (rel : Fin m → ℝ) : Fin m ⊕ Fin (regRows n) → ℝ
  | .inl led => opticalDepth (rel led)
  | .inr _ => 0

/-- `‖B x - b‖²`. -/
def residual {ι : Type} [Fintype ι] {n : ℕ} (B : ι → Fin n → ℝ) (b : ι → ℝ) (x : Fin n → ℝ) : ℝ :=
  ∑ i, (∑ l, B i l * x l - b i) ^ 2

/-- `x` minimises `‖B x - b‖²` among the non-negative vectors. -/
structure IsMinimiser {ι : Type} [Fintype ι] {n : ℕ} (B : ι → Fin n → ℝ) (b : ι → ℝ) (x : Fin n → ℝ) : Prop where
  nonneg : ∀ l, 0 ≤ x l
  minimal : ∀ y : Fin n → ℝ, (∀ l, 0 ≤ y l) → residual B b x ≤ residual B b y

/-- What is assumed of `scipy.optimize.nnls(B, b)`: the result is a minimiser, and the active set method starts with
`x = 0` and stops there if no entry of `Bᵀ b` is positive. -/
structure IsNnls {ι : Type} [Fintype ι] {n : ℕ} (B : ι → Fin n → ℝ) (b : ι → ℝ) (x : Fin n → ℝ) : Prop
    extends IsMinimiser B b x where
  start : (∀ l, ∑ i, B i l * b i ≤ 0) → x = 0

/-- `calc_coefficients_of_img` of the linear solver, /repo/ledsa/analysis/ExtinctionCoefficientsLinear.py 43-92: `σ` may be
returned for the relative intensities `rel`. -/
def LinearSolution {m n : ℕ} (A : Fin m → Fin n → ℝ) (lam : ℝ) (rel : Fin m → ℝ) (σ : Fin n → ℝ) : Prop :=
  IsNnls (augMatrix A lam) (augRhs n rel) σ

end Ledsa
