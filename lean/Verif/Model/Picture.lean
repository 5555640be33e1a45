import Verif.Model.Images
import Verif.Model.Step1
/-
Model of photos that are not raw (JPG, PNG) as they are read by step 1 and step 3: `/repo/ledsa/core/image_reading.py` 39-61, 96-104.
`plt.imread` gives integers from 0 to 255 for JPG files and numbers from 0 to 1 for PNG files (single precision, the byte divided by 255).
-/
namespace Ledsa

/-- What `plt.imread` gives: an array with or without colour axis. -/
inductive Picture
  | plain (img : Image ℚ)
  | colour (h w depth : ℕ) (px : ℕ → ℕ → ℕ → ℚ)

/-- `_read_channel_data_from_img_file`, /repo/ledsa/core/image_reading.py 49-61 with 96-98: `img_array[:, :, channel]`. Negative
channel numbers are not modelled. -/
def Picture.channel (k : ℕ) : Picture → Except PyErr (Image ℚ)
  | .plain _ => .error .indexError
  | .colour h w depth px => if k < depth then .ok ⟨h, w, fun i j => px i j k⟩ else .error .indexError

/-- `_read_grayscale_img_array_from_img_file`, /repo/ledsa/core/image_reading.py 100-104, for pictures with a colour axis of at least
three channels (others: `dotColour`, `dotPlain`): `dot` is the product with the weights in floating point. -/
def Picture.grey (dot : ℚ → ℚ → ℚ → ℚ) : Picture → Except PyErr (Image ℚ)
  | .plain _ => .error .valueError
  | .colour h w depth px => if 3 ≤ depth then .ok ⟨h, w, fun i j => toGray (dot (px i j 0) (px i j 1) (px i j 2))⟩ else .error .valueError

/-- What step 1 looks at, /repo/ledsa/data_extraction/DataExtractor.py 101-106: `none` stands for `channel = all`. -/
def Picture.step1 (dot : ℚ → ℚ → ℚ → ℚ) (channel : Option ℕ) (p : Picture) : Except PyErr (Image ℚ) :=
  match channel with
  | none => p.grey dot
  | some k => p.channel k

end Ledsa
