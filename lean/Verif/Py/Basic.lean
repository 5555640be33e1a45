/-
Python run time semantics used by the models: errors, `range`, slices.
These definitions follow the Python language reference, not a file of /repo.
-/
namespace Ledsa

/-- Python exceptions that the modelled code can raise (or `exit`). -/
inductive PyErr
  | indexError
  | valueError
  | typeError
  | nameError
  | keyError
  | attributeError
  | unboundLocalError
  | linAlgError
  | configError
  | fileNotFound
  | systemExit
deriving DecidableEq, Repr

/-- Text. Python `str` restricted to what the models need. -/
abbrev Str := List Char

/-- Number of elements of `range(start, stop, step)` for `step > 0`
(CPython `compute_range_length`: `0` if `start >= stop`, else `1 + (stop - 1 - start) // step`). -/
def rangeLen (start stop : Int) (step : Nat) : Nat :=
  if stop ≤ start then 0 else 1 + ((stop - 1 - start).toNat / step)

/-- `list(range(start, stop, step))` for `step ≥ 1`. -/
def pyRangePos (start stop : Int) (step : Nat) : List Int :=
  (List.range (rangeLen start stop step)).map fun (j : Nat) => start + (j : Int) * (step : Int)

/-- `list(range(start, stop, step))`: `step = 0` raises `ValueError`,
a negative step counts downwards. -/
def pyRange (start stop step : Int) : Except PyErr (List Int) :=
  if step = 0 then .error .valueError
  else if 0 < step then .ok (pyRangePos start stop step.toNat)
  else .ok ((pyRangePos (-start) (-stop) (-step).toNat).map (fun x => -x))

/-- Bound of a Python slice `a[i:j]` on an axis of length `n`: negative bounds count from the end, and
bounds are clipped to `[0, n]` (`PySlice_AdjustIndices`). -/
def sliceBound (n : Nat) (i : Int) : Nat :=
  if i < 0 then (i + n).toNat else min i.toNat n

/-- The indices selected by the slice `[i:j]` on an axis of length `n`, ascending. -/
def sliceIdx (n : Nat) (i j : Int) : List Nat :=
  (List.range n).filter fun k => sliceBound n i ≤ k ∧ k < sliceBound n j

theorem mem_sliceIdx {n : Nat} {i j : Int} {k : Nat} :
    k ∈ sliceIdx n i j ↔ k < n ∧ sliceBound n i ≤ k ∧ k < sliceBound n j := by
  simp [sliceIdx]

theorem sliceIdx_nodup (n : Nat) (i j : Int) : (sliceIdx n i j).Nodup :=
  List.nodup_range.filter _

end Ledsa
