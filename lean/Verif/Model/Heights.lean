import Mathlib.Data.List.Sort
import Verif.Model.SimData

/-!
# LED parameters by height

`/repo/ledsa/postprocessing/simulation.py`. All LEDs have coordinates and values (no NaN); one parameter is followed.
-/

namespace Ledsa

/-- A row of the table of LED parameters of one channel after the times were merged, simulation.py 155-157; `val` is the chosen
parameter. -/
structure HRow where
  time : ℤ
  img : ℕ
  height : ℚ
  led : ℕ
  array : ℕ
  val : ℚ
deriving DecidableEq

/-- The key of the groups, simulation.py 204. -/
def HRow.key (r : HRow) : ℤ × ℚ := (r.time, r.height)

/-- `.last()` of the groups, simulation.py 204-206: the last row with each key, in table order. -/
def lastOfKey : List HRow → List HRow
  | [] => []
  | r :: l => if r.key ∈ l.map HRow.key then lastOfKey l else r :: lastOfKey l

/-- `groupby` sorts the groups by their keys, simulation.py 204. -/
def keyLe (a b : HRow) : Prop := a.time < b.time ∨ a.time = b.time ∧ a.height ≤ b.height

instance : DecidableRel keyLe := fun a b => by unfold keyLe; infer_instance

/-- `remove_duplicate_heights` for one channel, /repo/ledsa/postprocessing/simulation.py 202-206. -/
def removeDuplicateHeights (rows : List HRow) : List HRow := (lastOfKey rows).insertionSort keyLe

/-- `pivot`, pandas: each pair of time and height occurs once, otherwise `ValueError`. -/
def pivotHeights (l : List (ℤ × ℚ × Option ℚ)) : Except PyErr (List (ℤ × ℚ × Option ℚ)) :=
  if (l.map fun r => (r.1, r.2.1)).Nodup then .ok l else .error .valueError

/-- `get_ledparams_at_led_array` with `yaxis='height'`, without smoothing, /repo/ledsa/postprocessing/simulation.py 376-395. -/
def ledParamsByHeight (numRef : ℕ) (nRef : Option ℕ) (delta : ℤ) (array : ℕ) (rows : List HRow) :
    Except PyErr (List (ℤ × ℚ × Option ℚ)) :=
  let ii := rows.filter fun r => r.array = array
  match refNumber numRef nRef with
  | none => pivotHeights (ii.map fun r => (r.time + delta, r.height, some r.val))
  | some n => pivotHeights (ii.map fun r =>
      (r.time + delta, r.height, relTo (((ii.filter fun s => s.height = r.height).map (·.val)).take n) r.val))

end Ledsa
