import Verif.Model.Step1
import Verif.Model.ImageInfos
import Mathlib.Algebra.Order.Field.Basic
/-
Model of step 3, reading LED intensities from images:
/repo/ledsa/data_extraction/step_3_functions.py, /repo/ledsa/data_extraction/LEDAnalysisData.py and the loader
/repo/ledsa/core/file_handling.py 220-336.
-/
namespace Ledsa

/-! ### Pixel values of a search area -/

section
variable {K : Type} [Field K] [LinearOrder K]

/-- `data[search_area]` flattened, /repo/ledsa/data_extraction/step_3_functions.py 137-142: rows `r-R : r+R`, columns
`c-R : c+R` with Python slice semantics (negative bounds count from the end). -/
def window (img : Image K) (r c : Int) (R : Nat) : List K :=
  (sliceIdx img.h (r - R) (r + R)).flatMap fun i => (sliceIdx img.w (c - R) (c + R)).map fun j => img.px i j

/-- Shape of `data[search_area]`. -/
def windowShape (img : Image K) (r c : Int) (R : Nat) : Nat × Nat :=
  ((sliceIdx img.h (r - R) (r + R)).length, (sliceIdx img.w (c - R) (c + R)).length)

/-- Values of one LED without fit. -/
structure Measured (K : Type) where
  sum : K
  mean : K
  max : K
deriving DecidableEq

/-- `np.mean`, `np.sum`, `np.amax` of the search area, /repo/ledsa/data_extraction/step_3_functions.py 156-158. For an
empty area `np.amax` raises `ValueError`. -/
def measure (img : Image K) (r c : Int) (R : Nat) : Except PyErr (Measured K) :=
  match window img r c R with
  | [] => .error .valueError
  | v :: vs => .ok ⟨(v :: vs).sum, (v :: vs).sum / ((v :: vs).length : K), vs.foldl max v⟩

/-- Can numpy broadcast arrays of these two shapes against each other (both two dimensional)? -/
def broadcastable (a b : Nat × Nat) : Bool :=
  (a.1 = b.1 || a.1 = 1 || b.1 = 1) && (a.2 = b.2 || a.2 = 1 || b.2 = 1)

/-- The shapes met in `_fit_model_to_led` and `target_function`: `data` has shape `(nx, ny)`, `np.meshgrid(x, y)` has
shape `(ny, nx)`, and `data - led_model(...)` needs both to be broadcastable
(/repo/ledsa/data_extraction/step_3_functions.py 231-239, /repo/ledsa/data_extraction/model.py 33-41). `np.max` of an
empty mesh raises `ValueError`. -/
def fitShapesOk (shape : Nat × Nat) : Except PyErr Unit :=
  if shape.1 = 0 ∨ shape.2 = 0 then .error .valueError
  else if broadcastable shape (shape.2, shape.1) then .ok () else .error .valueError

/-- `_generate_led_analysis_data`, /repo/ledsa/data_extraction/step_3_functions.py 110-162 (fit values not modelled
here, only whether the fit can be set up). -/
def ledData (img : Image K) (areas : List (Int × Int)) (R : Nat) (fit : Bool) (id : Nat) :
    Except PyErr (Measured K) :=
  match areas[id]? with
  | none => .error .indexError
  | some (r, c) =>
    if fit then
      match fitShapesOk (windowShape img r c R) with
      | .error e => .error e
      | .ok () => measure img r c R
    else measure img r c R

/-- The rows of one image, `generate_analysis_data`, /repo/ledsa/data_extraction/step_3_functions.py 50-58:
`(LED id, array number, values)`. `skip` is `num_skip_leds` (at least 0). -/
def arrayRows (img : Image K) (areas : List (Int × Int)) (R : Nat) (fit : Bool) (skip : Nat) (k : Nat)
    (ids : List Nat) : Except PyErr (List (Nat × Nat × Measured K)) :=
  (ids.filter (fun i => i % (skip + 1) = 0)).mapM fun i =>
    match ledData img areas R fit i with
    | .error e => .error e
    | .ok m => .ok (i, k, m)

/-- `generate_analysis_data` over the arrays from number `k` on. -/
def imageRowsFrom (img : Image K) (areas : List (Int × Int)) (R : Nat) (fit : Bool) (skip : Nat) :
    Nat → List (List Nat) → Except PyErr (List (Nat × Nat × Measured K))
  | _, [] => .ok []
  | k, a :: as =>
    match arrayRows img areas R fit skip k a with
    | .error e => .error e
    | .ok r =>
      match imageRowsFrom img areas R fit skip (k + 1) as with
      | .error e => .error e
      | .ok rs => .ok (r ++ rs)

/-- `generate_analysis_data`, /repo/ledsa/data_extraction/step_3_functions.py 17-58. -/
def imageRows (img : Image K) (areas : List (Int × Int)) (R : Nat) (fit : Bool) (skip : Nat)
    (arrays : List (List Nat)) : Except PyErr (List (Nat × Nat × Measured K)) :=
  imageRowsFrom img areas R fit skip 0 arrays

end

/-! ### Rows of the result file and columns of the loaded table -/

/-- Texts of the values of one LED without fit (each produced by one format specification). -/
structure RowText where
  ledId : Str
  array : Str
  sum : Str
  mean : Str
  max : Str

/-- Texts of the fit values. -/
structure FitText where
  cx : Str
  cy : Str
  x : Str
  y : Str
  dx : Str
  dy : Str
  a : Str
  alpha : Str
  wx : Str
  wy : Str
  success : Str
  fun' : Str
  nfev : Str
  time : Str

/-- `get_main_data_string`, /repo/ledsa/data_extraction/LEDAnalysisData.py 62-71. -/
def mainString (r : RowText) : Str := joinChar ',' [r.ledId, r.array, r.sum, r.mean, r.max]

/-- `get_fit_data_string`, /repo/ledsa/data_extraction/LEDAnalysisData.py 73-85. -/
def fitString (f : FitText) : Str :=
  f.cx ++ ',' :: ' ' :: joinChar ',' [f.cy, f.x, f.y, f.dx, f.dy, f.a, f.alpha, f.wx, f.wy, f.success, f.fun', f.nfev,
    f.time]

/-- `__str__` without the line end, /repo/ledsa/data_extraction/LEDAnalysisData.py 48-60: the fit string directly follows
the main string. -/
def rowString (r : RowText) (f : Option FitText) : Str :=
  mainString r ++ (match f with | none => [] | some f => fitString f)

/-- Columns without fit, /repo/ledsa/core/file_handling.py 287-288. -/
def baseColumns : List String := ["img_id", "led_id", "led_array_id", "sum_col_val", "mean_col_val", "max_col_val"]

/-- Additional columns with fit, /repo/ledsa/core/file_handling.py 290-291. -/
def fitColumns : List String := ["led_center_x", "led_center_y", "x", "y", "dx", "dy", "A", "alpha", "wx", "wy",
  "fit_success", "fit_fun", "fit_nfev"]

/-- `_get_old_columns`, /repo/ledsa/core/file_handling.py 298-315. -/
def oldColumns (n : Nat) : List String :=
  if n = 15 then ["img_id", "led_id", "led_array_id", "x", "y", "dx", "dy", "A", "alpha", "wx", "wy", "fit_success",
    "fit_fun", "fit_nfev", "sum_col_val", "mean_col_val"]
  else if n = 4 then ["img_id", "led_id", "led_array_id", "sum_col_val", "mean_col_val"]
  else []

/-- `_get_column_names` for a file with `n` columns, without the coordinates,
/repo/ledsa/core/file_handling.py 276-295. -/
def columnNames (n : Nat) : List String :=
  let c := if baseColumns.length < n then baseColumns ++ fitColumns else baseColumns
  if n + 1 ≠ c.length then oldColumns n else c

/-- The loaded row: column name and field text, /repo/ledsa/core/file_handling.py 318-336 (`img_id` is put in front).
If the number of names does not fit, pandas raises `ValueError`. -/
def loadRow (imgId : Str) (line : Str) : Except PyErr (List (String × Str)) :=
  let fields := splitChar ',' line
  let names := columnNames fields.length
  if names.length = fields.length + 1 then .ok (names.zip (imgId :: fields)) else .error .valueError

/-! ### The text format `10.4e` of integers -/

/-- Decimal exponent: number of digits minus one (with fuel `n`). -/
def decExpFuel : Nat → Nat → Nat
  | 0, _ => 0
  | f + 1, n => if n < 10 then 0 else decExpFuel f (n / 10) + 1

/-- `⌊log₁₀ n⌋` for `n ≥ 1`. -/
def decExp (n : Nat) : Nat := decExpFuel n n

/-- Integer division rounding half to even (the rounding of C `printf` / Python float formatting on an exact value). -/
def divHalfEven (n d : Nat) : Nat :=
  let q := n / d
  let r := n % d
  if 2 * r < d then q else if d < 2 * r then q + 1 else if q % 2 = 0 then q else q + 1

/-- Mantissa (five digits) and exponent of `f'{n:10.4e}'` for an integer that a double represents exactly,
/repo/ledsa/data_extraction/LEDAnalysisData.py 70. -/
def sci4 (n : Nat) : Nat × Nat :=
  if n = 0 then (0, 0)
  else
    let e := decExp n
    if e ≤ 4 then (n * 10 ^ (4 - e), e)
    else
      let m := divHalfEven n (10 ^ (e - 4))
      if m = 100000 then (10000, e + 1) else (m, e)

/-- The text `d.dddde+XX`. (At least two exponent digits; minimum width 10 is always reached.) -/
def fmtSci4 (n : Nat) : Str :=
  let m := (sci4 n).1
  let e := (sci4 n).2
  natStr (m / 10000) ++ '.' :: zfill 4 (natStr (m % 10000)) ++ 'e' :: '+' :: zfill 2 (natStr e)

/-- Reading such a text with `np.loadtxt` and `astype(int)`, /repo/ledsa/core/file_handling.py 248, 271: value
`m.ffff * 10^e` truncated to an integer. -/
def readSci (s : Str) : Option Nat :=
  match splitChar '.' s with
  | [a, rest] =>
    match splitChar 'e' rest with
    | [f, '+' :: x] =>
      match parseNat a, parseNat f, parseNat x with
      | some a, some fv, some e => some ((a * 10 ^ f.length + fv) * 10 ^ e / 10 ^ f.length)
      | _, _, _ => none
    | _ => none
  | _ => none

end Ledsa
