import Verif.Py.Basic
import Mathlib.Order.Defs.LinearOrder
import Mathlib.Data.Rat.Floor
import Mathlib.Data.List.Sort
/-
Model of step 1, LED detection: /repo/ledsa/data_extraction/step_1_functions.py 9-43.
-/
namespace Ledsa

/-- A grey value image with `h` rows and `w` columns (`px` is only meaningful inside). `V` is the type of pixel
values: any linear order with a zero (integers, rationals, reals). -/
structure Image (V : Type) where
  h : Nat
  w : Nat
  px : Nat → Nat → V

/-- A position is inside the image. -/
def Image.Inside {V : Type} (img : Image V) (p : Nat × Nat) : Prop := p.1 < img.h ∧ p.2 < img.w

/-- The pixels of the numpy slice `image[r-R : r+R, c-R : c+R]`
(/repo/ledsa/data_extraction/step_1_functions.py 37). -/
def inSlice (h w : Nat) (r c : Nat) (R : Nat) (i j : Nat) : Bool :=
  decide (i ∈ sliceIdx h ((r : Int) - R) ((r : Int) + R)) && decide (j ∈ sliceIdx w ((c : Int) - R) ((c : Int) + R))

/-- `image[r-R : r+R, c-R : c+R] = 0`, /repo/ledsa/data_extraction/step_1_functions.py 37. -/
def Image.clear {V : Type} [Zero V] (img : Image V) (R : Nat) (p : Nat × Nat) : Image V where
  h := img.h
  w := img.w
  px := fun i j => if inSlice img.h img.w p.1 p.2 R i j then 0 else img.px i j

/-- Contract of `cv2.minMaxLoc(image)`: some position of the largest value. -/
def IsMaxLoc {V : Type} [LinearOrder V] (maxLoc : Image V → Nat × Nat) : Prop :=
  ∀ img : Image V, 0 < img.h → 0 < img.w →
    img.Inside (maxLoc img) ∧ ∀ i j, i < img.h → j < img.w → img.px i j ≤ img.px (maxLoc img).1 (maxLoc img).2

/-- The while loop of `find_search_areas`, /repo/ledsa/data_extraction/step_1_functions.py 34-40.
`n` is `max_n_leds - led_id`, `mv` is `max_pixel_value`. Each round either appends an LED (`led_id` grows) or sets
`max_pixel_value <= threshold`, which ends the loop; hence recursion on `n`. -/
def searchLoop {V : Type} [LinearOrder V] [Zero V] (maxLoc : Image V → Nat × Nat) (thr : V) (R : Nat) :
    Nat → Nat → Image V → V → List (Nat × Nat × Nat)
  | 0, _, _, _ => []
  | n + 1, id, img, mv =>
    if thr < mv then
      let p := maxLoc img
      let v := img.px p.1 p.2
      if thr < v then
        (id, p.1, p.2) :: searchLoop maxLoc thr R n (id + 1) (img.clear R p) v
      else []
    else []

/-- `find_search_areas` for a given threshold, /repo/ledsa/data_extraction/step_1_functions.py 27-43
(printing omitted; rows are `(LED id, row, column)`). -/
def findSearchAreas {V : Type} [LinearOrder V] [Zero V] (maxLoc : Image V → Nat × Nat) (thr : V) (R maxN : Nat)
    (img : Image V) : List (Nat × Nat × Nat) :=
  searchLoop maxLoc thr R maxN 0 img (img.px (maxLoc img).1 (maxLoc img).2)

/-- All pixel values, row by row. -/
def Image.values {V : Type} (img : Image V) : List V :=
  (List.range img.h).flatMap fun i => (List.range img.w).map fun j => img.px i j

/-- The first position of the largest value in row-major order: an instance of the contract. -/
def firstMaxLoc {V : Type} [LinearOrder V] (img : Image V) : Nat × Nat :=
  (((List.range img.h).flatMap fun i => (List.range img.w).map fun j => (i, j)).foldl
    (fun best p => if img.px best.1 best.2 < img.px p.1 p.2 then p else best) (0, 0))

/-- `np.percentile(a, q)` with linear interpolation on the sorted values, as used in
/repo/ledsa/data_extraction/step_1_functions.py 28. `none` for an empty input (an error in numpy). -/
def percentile (vals : List ℚ) (q : ℚ) : Option ℚ :=
  let s := vals.insertionSort (· ≤ ·)
  let pos : ℚ := q / 100 * ((s.length : ℚ) - 1)
  let i := ⌊pos⌋.toNat
  let frac : ℚ := pos - ⌊pos⌋
  match s[i]?, s[i + 1]? with
  | some a, some b => some (a + frac * (b - a))
  | some a, none => some a
  | none, _ => none

end Ledsa
