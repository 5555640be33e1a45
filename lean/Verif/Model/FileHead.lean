import Verif.Model.SavedNumbers
import Verif.Model.Analysis
/-
Model of which settings of an analysis are written into the head of a file of extinction coefficients:
`/repo/ledsa/analysis/ExtinctionCoefficients.py` 41-71, 135-159 with the constructors of both solvers. Floating point numbers are any
type with a text (`str` of Python); a file path, the LED positions and the distances are not part of the head.
-/
namespace Ledsa

/-- What the head needs of floating point numbers. -/
structure HeadFloat (F : Type) where
  /-- `str(x)` -/
  str : F → Str
  /-- `f"{x:.2f}"` -/
  fixed2 : F → Str
  /-- `np.linspace(bottom, top, amount + 1)`, /repo/ledsa/analysis/Experiment.py 56 -/
  borders : ℕ → F → F → List F
  /-- `(a + b) / 2` -/
  mid : F → F → F

/-- The two solvers with the parameters of their constructors, /repo/ledsa/analysis/ExtinctionCoefficientsLinear.py 22-41 and
/repo/ledsa/analysis/ExtinctionCoefficientsNonLinear.py 30-56. -/
inductive HeadSolver (F : Type)
  | linear (lam : F)
  | nonlinear (curvature preference : F) (iterations : ℕ)

/-- The settings an analysis of one array and channel is made with, /repo/ledsa/core/parser_arguments_run.py 219-237. -/
structure RunSettings (F : Type) where
  channel : ℕ
  array : ℕ
  amount : ℕ
  bottom : F
  top : F
  camX : F
  camY : F
  camZ : F
  /-- `reference_property` -/
  property : Str
  /-- `num_ref_imgs` -/
  numRef : ℕ
  /-- `ref_img_indices` -/
  refs : Option (List ℤ)
  /-- `average_images` -/
  average : Bool
  /-- `merge_led_arrays` -/
  merge : Bool
  solver : HeadSolver F
  /-- `version("ledsa")` -/
  version : Str

/-- `str(ref_img_indices)`, /repo/ledsa/analysis/ExtinctionCoefficients.py 70. -/
def refsText : Option (List ℤ) → Str
  | none => "None".toList
  | some l => pyListStr l

/-- The name of the solver, /repo/ledsa/analysis/ExtinctionCoefficientsLinear.py 41, /repo/ledsa/analysis/ExtinctionCoefficientsNonLinear.py 56. -/
def HeadSolver.name {F : Type} : HeadSolver F → Str
  | .linear _ => "linear".toList
  | .nonlinear _ _ _ => "nonlinear".toList

/-- `str(lambda_reg)`, /repo/ledsa/analysis/ExtinctionCoefficients.py 66, 70: only the linear solver sets it. -/
def HeadSolver.lamText {F : Type} (fl : HeadFloat F) : HeadSolver F → Str
  | .linear lam => fl.str lam
  | .nonlinear _ _ _ => "None".toList

/-- The head, /repo/ledsa/analysis/ExtinctionCoefficients.py 68-71 and 144-151. -/
def RunSettings.head {F : Type} (fl : HeadFloat F) (s : RunSettings F) : CoeffHeader :=
  let b := fl.borders s.amount s.bottom s.top
  ⟨natStr s.channel, natStr s.array, natStr s.amount, fl.str s.bottom, fl.str s.top, fl.str s.camX, fl.str s.camY, fl.str s.camZ, s.property,
    refsText s.refs, s.solver.name, s.solver.lamText fl, s.version, b.dropLast.map fl.str, b.tail.map fl.str,
    (b.dropLast.zipWith fl.mid b.tail).map fl.fixed2⟩

/-- The reference images, /repo/ledsa/analysis/ExtinctionCoefficients.py 182-185. -/
def RunSettings.refChoice {F : Type} (s : RunSettings F) : RefChoice :=
  match s.refs with
  | none => .first s.numRef
  | some l => .ids ((l.filter (0 ≤ ·)).map Int.toNat)

end Ledsa
