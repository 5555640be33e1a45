import Mathlib.Data.Rat.Floor
import Mathlib.Algebra.Order.Floor.Ring
import Verif.Model.Analysis
import Verif.Py.Text

/-!
# Reading images

`/repo/ledsa/core/image_reading.py`. Images are functions of row and column; decoding of files is not modelled. The raw data
are unsigned 16 bit integers, black levels are between 0 and 32767 and below the white level (equal levels raise
`ZeroDivisionError`). Under the pinned NumPy a 16 bit array times a Python float is a product of 32 bit floats; that product
and the factor are rounded as IEEE 754 prescribes (`fl`), without subnormal numbers, which do not occur here.
-/

namespace Ledsa

/-- Rounding to the nearest integer, ties to even. -/
def rne (q : ℚ) : ℤ :=
  if q - ⌊q⌋ < 1 / 2 then ⌊q⌋ else if q - ⌊q⌋ > 1 / 2 then ⌊q⌋ + 1 else if ⌊q⌋ % 2 = 0 then ⌊q⌋ else ⌊q⌋ + 1

/-- Rounding of a number from one on to `p` binary digits. -/
def flPos (p : ℕ) (q : ℚ) : ℚ :=
  let u : ℚ := (2 : ℚ) ^ ((p : ℤ) - 1 - (Nat.log2 ⌊q⌋.toNat : ℤ))
  rne (q * u) / u

/-- Rounding of zero or a number of absolute value from one on to `p` binary digits. -/
def fl (p : ℕ) (q : ℚ) : ℚ := if q < 0 then -flPos p (-q) else flPos p q

/-- `astype(np.int16)` of an integer, and the result of 16 bit integer arithmetic. -/
def wrap16 (z : ℤ) : ℤ := (z + 32768) % 65536 - 32768

/-- Factor as 32 bit float, /repo/ledsa/core/image_reading.py 92: quotient of Python floats, then converted. -/
def scaleFactor (black white : ℤ) : ℚ := fl 24 (fl 53 ((white : ℚ) / ((white : ℚ) - black)))

/-- One pixel of `_read_img_array_from_raw_file`, /repo/ledsa/core/image_reading.py 91-93. -/
def scalePixel (to16 : Int16Cast) (black white data : ℤ) : ℤ :=
  let x := wrap16 (wrap16 data - black)
  min (max (to16.cast (fl 24 ((x : ℚ) * scaleFactor black white))) 0) white

/-- What `rawpy` delivers, /repo/ledsa/core/image_reading.py 86-90. -/
structure RawImage where
  data : ℕ → ℕ → ℤ
  colors : ℕ → ℕ → ℕ
  black : List ℤ
  white : ℤ

/-- `_read_img_array_from_raw_file`, /repo/ledsa/core/image_reading.py 84-94. -/
def readRaw (to16 : Int16Cast) (raw : RawImage) (channel : ℕ) : Except PyErr (ℕ → ℕ → ℤ) :=
  match raw.black[channel]? with
  | none => .error .indexError
  | some b => .ok fun i j => scalePixel to16 b raw.white (raw.data i j)

/-- `_read_channel_data_from_raw_file`, /repo/ledsa/core/image_reading.py 76-81. -/
def readRawChannel (to16 : Int16Cast) (raw : RawImage) (channel : ℕ) : Except PyErr (ℕ → ℕ → ℤ) :=
  match readRaw to16 raw channel with
  | .error e => .error e
  | .ok img =>
    if channel = 0 ∨ channel = 2 then .ok fun i j => if raw.colors i j = channel then img i j else 0
    else if channel = 1 then .ok fun i j => if raw.colors i j = 1 ∨ raw.colors i j = 3 then img i j else 0
    else .error .unboundLocalError

/-! ### Other images -/

/-- Exact value of `np.dot(pixel[:3], weights)`, /repo/ledsa/core/image_reading.py 102-103. -/
def dotExact (r g b : ℚ) : ℚ := r * (2989 / 10000) + g * (5870 / 10000) + b * (1140 / 10000)

/-- What floating point arithmetic may deliver for it: not negative for values that are not, and close. -/
def IsDot (r g b v : ℚ) : Prop := 0 ≤ v ∧ |v - dotExact r g b| ≤ 1 / 10 ^ 6

/-- `astype(np.uint8)` of a number from 0 to below 256, /repo/ledsa/core/image_reading.py 103. -/
def toGray (v : ℚ) : ℤ := truncZero v

/-- `np.dot(img_array[..., :3], weights)` for an image with a colour axis, exact. -/
def dotColour (img : List (List (List ℚ))) : Except PyErr (List (List ℚ)) :=
  img.mapM fun row => row.mapM fun px => match px.take 3 with
    | [r, g, b] => .ok (dotExact r g b)
    | _ => .error .valueError

/-- The same for an image without colour axis: the last axis are the columns. -/
def dotPlain (img : List (List ℚ)) : Except PyErr (List ℚ) :=
  img.mapM fun row => match row.take 3 with
    | [r, g, b] => .ok (dotExact r g b)
    | _ => .error .valueError

/-! ### Choice of the reader -/

/-- `os.path.splitext(filename)[-1]` of `posixpath`, for a name without directory: the text from the last dot on unless only
dots are before it. -/
def splitExt (name : Str) : Str :=
  let ext := (name.reverse.takeWhile (· ≠ '.')).reverse
  let base := name.take (name.length - ext.length - 1)
  if '.' ∈ name ∧ ∃ c ∈ base, c ≠ '.' then '.' :: ext else []

/-- Kinds of images. -/
inductive ImgKind | picture | raw
deriving DecidableEq, Repr

/-- Choice of the reader, /repo/ledsa/core/image_reading.py 22-27 and 41-46. -/
def imgKind (name : Str) : Except PyErr ImgKind :=
  if splitExt name ∈ [".JPG".toList, ".JPEG".toList, ".jpg".toList, ".jpeg".toList, ".PNG".toList, ".png".toList] then .ok .picture
  else if splitExt name ∈ [".CR2".toList, ".CR3".toList] then .ok .raw
  else .error .unboundLocalError

end Ledsa
