import Verif.Model.Images
import Verif.Model.ImageInfos
import Mathlib.Analysis.SpecialFunctions.Pow.Real
/-!
# The exposure checker and the Widman relation

The cells of `/repo/ledsa/tools/exposure_checker.ipynb` (cell numbers in the order of the notebook, markdown included) and
`/repo/ledsa/postprocessing/helper_functions.py`. Percentages are exact; printing them is not modelled. Values of pixels are
integers (JPG: 8 bit; PNG files, whose values are floats, do not get as far as that).
-/

namespace Ledsa

/-- The saturation limit, cell 5 of `/repo/ledsa/tools/exposure_checker.ipynb`: chosen by the text after the last dot of the
name template; `none` if the variable is not defined. -/
def saturationLimit (template : Str) : Option ℕ :=
  match (splitChar '.' template).getLast? with
  | none => none
  | some ext =>
    if ext ∈ ["JPG".toList, "JPEG".toList, "jpg".toList, "jpeg".toList] then some (2 ^ 8 - 1)
    else if ext ∈ ["CR2".toList, "CR3".toList] then some (2 ^ 14 - 1)
    else none

/-- All values of an image with `h` rows and `w` columns. -/
def pixelList (h w : ℕ) (px : ℕ → ℕ → ℤ) : List ℤ := (List.range h).flatMap fun i => (List.range w).map fun j => px i j

/-- `channel_array.max()`. -/
def pixelMax : List ℤ → Except PyErr ℤ
  | [] => .error .valueError
  | v :: vs => .ok (vs.foldl max v)

/-- One line of the report, cell 7 of `/repo/ledsa/tools/exposure_checker.ipynb`: maximum and `max / saturation * 100`. -/
def channelExposure (limit : Option ℕ) (values : List ℤ) : Except PyErr (ℤ × ℚ) :=
  match pixelMax values with
  | .error e => .error e
  | .ok m => match limit with
    | none => .error .nameError
    | some s => .ok (m, (m : ℚ) / s * 100)

/-- The loop over the photos, cell 7 of `/repo/ledsa/tools/exposure_checker.ipynb`: photos that do not exist are skipped;
`read name c` are the values of a channel. -/
def checkExposure (t : NameTemplate) (template : Str) (present : Str → Bool) (read : Str → ℕ → Except PyErr (List ℤ)) :
    List ℤ → Except PyErr (List (Str × List (ℤ × ℚ)))
  | [] => .ok []
  | i :: is =>
    if present (t.format i) then do
      let vs ← [0, 1, 2].mapM (read (t.format i))
      let lines ← vs.mapM (channelExposure (saturationLimit template))
      let rest ← checkExposure t template present read is
      pure ((t.format i, lines) :: rest)
    else checkExposure t template present read is

/-- `get_widman_extco`, /repo/ledsa/postprocessing/helper_functions.py 1-3, for positive wavelengths. -/
noncomputable def widmanExtco (l : ℝ) : ℝ := 4.8081 * l ^ (-1.0088 : ℝ)

end Ledsa
