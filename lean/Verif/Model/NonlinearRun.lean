import Verif.Model.Pipeline
import Verif.Model.Nonlinear

/-!
# An analysis with the nonlinear solver

`/repo/ledsa/analysis/ExtinctionCoefficientsNonLinear.py` in the loop over the images of
`/repo/ledsa/analysis/ExtinctionCoefficients.py`.

The iteration of `scipy.optimize.minimize(method='TNC')` is not modelled. It ends after a limited number of steps or at a point it
takes for a minimum; how far the cost there is above the least possible cost is the parameter `tol`. The start of the iteration (the
coefficients of the previous image, or zeros) then does not matter.
-/

namespace Ledsa

/-- Weights of the cost function, and how far above the least cost the solver may stop,
/repo/ledsa/analysis/ExtinctionCoefficientsNonLinear.py 30-31, 53-55, 76-78. -/
structure NonlinearOptions where
  curv : ℝ
  pref : ℝ
  tol : ℝ

/-- What `minimize` may return, /repo/ledsa/analysis/ExtinctionCoefficientsNonLinear.py 76-81. -/
def NearBest {m n : ℕ} (A : Fin m → Fin n → ℝ) (o : NonlinearOptions) (target : Fin m → ℝ) (σ : Fin n → ℝ) : Prop :=
  InBounds σ ∧ ∀ τ, InBounds τ → costFunction A o.curv o.pref target σ ≤ costFunction A o.curv o.pref target τ + o.tol

/-- `calc_coefficients_of_img`, /repo/ledsa/analysis/ExtinctionCoefficientsNonLinear.py 59-82: what may be the result `r` for one
image. With missing distances every cost is `nan` and nothing is said about the result, and neither if one intensity is compared
with several; other numbers of intensities cannot be subtracted (line 127). -/
def NonlinearImage (n : ℕ) (rows : List (Option (List ℝ))) (o : NonlinearOptions) (rel : List ℝ) (r : Except PyErr (Fin n → ℝ)) : Prop :=
  match rows.mapM id with
  | none => True
  | some M =>
    if rel.length = M.length then ∃ σ, r = .ok σ ∧ NearBest (distEntry M) o (fun (i : Fin M.length) => rel.getD i 0) σ
    else if rel.length = 1 ∨ M.length = 1 then True
    else r = .error .valueError

/-- `calc_and_set_coefficients(_mp)` of a new object with the nonlinear solver,
/repo/ledsa/analysis/ExtinctionCoefficients.py 73-103: what may be the coefficients of all images. -/
def ArrayAnalysis.NonlinearResultOf (a : ArrayAnalysis) (o : NonlinearOptions)
    (input : Except PyErr (List (Option (List ℝ)) × List (List ℝ))) (r : Except PyErr (List (Fin a.layers → ℝ))) : Prop :=
  match input with
  | .error e => r = .error e
  | .ok (rows, rels) => ∃ rs, List.Forall₂ (NonlinearImage a.layers rows o) rels rs ∧ r = rs.mapM id

end Ledsa
