import Verif.Model.Session
import Verif.Model.Rounding
import Mathlib.Analysis.SpecialFunctions.Trigonometric.Arctan
/-
The distances of step 2 as the program uses them, over the real numbers and with rounding.
-/
namespace Ledsa

/-- Distance of two pixels, `scipy.spatial.distance.cdist` and `np.linalg.norm`,
/repo/ledsa/data_extraction/step_2_functions.py 137, 199 (the exact value). -/
noncomputable def pixelDist (p q : ℤ × ℤ) : ℝ := Real.sqrt (((p.1 : ℝ) - q.1) ^ 2 + ((p.2 : ℝ) - q.2) ^ 2)

/-- The defaults, /repo/ledsa/data_extraction/step_2_functions.py 10-11; the call in
/repo/ledsa/data_extraction/DataExtractor.py 161-162 leaves them. -/
noncomputable def defaultMetric : Metric ℝ := ⟨pixelDist, 5, 987 / 1000⟩

/-- The numbers of a floating point arithmetic, with its addition and multiplication. -/
def Rounded (_ : Machine) : Type := ℝ

noncomputable instance (M : Machine) : LinearOrder (Rounded M) := inferInstanceAs (LinearOrder ℝ)

noncomputable instance (M : Machine) : Add (Rounded M) := ⟨fun (x y : ℝ) => M.rnd (x + y)⟩

noncomputable instance (M : Machine) : Mul (Rounded M) := ⟨fun (x y : ℝ) => M.rnd (x * y)⟩

/-- The defaults in floating point, /repo/ledsa/data_extraction/step_2_functions.py 10-11, 137-138, 199. Differences and squares of pixel numbers and the
sum of two squares are exact (below 2^53), so that only the square root of both library functions is rounded. -/
noncomputable def roundedMetric (M : Machine) : Metric (Rounded M) := ⟨fun p q => M.rnd (pixelDist p q), 5, M.rnd (987 / 1000)⟩

end Ledsa
