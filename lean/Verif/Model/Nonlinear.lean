import Verif.Model.Solver

/-!
# The result of the nonlinear solver

`/repo/ledsa/analysis/ExtinctionCoefficientsNonLinear.py`.

`scipy.optimize.minimize(method='TNC')` is an iteration for a function that need not be convex; nothing is assumed about it. What
is modelled is what it looks for: coefficients within the bounds whose cost is least.
-/

namespace Ledsa

/-- `self.bounds`, ExtinctionCoefficientsNonLinear.py 52. -/
def InBounds {n : ℕ} (σ : Fin n → ℝ) : Prop := ∀ l, 0 ≤ σ l ∧ σ l ≤ 10

/-- The coefficients that `minimize(self.cost_function, ..., bounds=tuple(self.bounds))` looks for,
ExtinctionCoefficientsNonLinear.py 76-78. -/
def BestFit {m n : ℕ} (A : Fin m → Fin n → ℝ) (wCurv wPref : ℝ) (target : Fin m → ℝ) (σ : Fin n → ℝ) : Prop :=
  InBounds σ ∧ ∀ τ, InBounds τ → costFunction A wCurv wPref target σ ≤ costFunction A wCurv wPref target τ

/-- The default of `weighting_curvature`, ExtinctionCoefficientsNonLinear.py 30. -/
noncomputable def defaultCurv : ℝ := 1 / 10 ^ 6

/-- The default of `weighting_preference`, ExtinctionCoefficientsNonLinear.py 31. -/
noncomputable def defaultPref : ℝ := -6 / 10 ^ 3

end Ledsa
