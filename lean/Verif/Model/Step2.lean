import Verif.Py.Text
import Mathlib.Order.Defs.LinearOrder
/-
Model of step 2, matching LEDs to LED arrays: /repo/ledsa/data_extraction/step_2_functions.py.
-/
namespace Ledsa

/-- `search_areas_dict`: LED id ↦ location in insertion order, /repo/ledsa/data_extraction/step_2_functions.py 33.
(Ids are unique: step 1 numbers LEDs consecutively.) -/
abbrev LedDict (P : Type) := List (Nat × P)

/-- `dict.get(id)`. -/
def LedDict.find {P : Type} (d : LedDict P) (id : Nat) : Option P := (List.find? (fun e => e.1 = id) d).map (·.2)

/-- `dict.get(id)` for an id from the configuration, which may be negative. -/
def LedDict.findI {P : Type} (d : LedDict P) (id : Int) : Option P := if 0 ≤ id then d.find id.toNat else none

/-- `del dict[id]`. -/
def LedDict.del {P : Type} (d : LedDict P) (id : Nat) : LedDict P := List.filter (fun e => e.1 ≠ id) d

/-- First element with the smallest key: `ndarray.argmin()` and `min(dict, key=...)`. -/
def firstMin {α D : Type} [LinearOrder D] (key : α → D) : List α → Option α
  | [] => none
  | x :: xs => some (xs.foldl (fun b y => if key y < key b then y else b) x)

/-- `_find_neighbour_leds` (and `_find_closest_node`), /repo/ledsa/data_extraction/step_2_functions.py 148-203:
extract the closest entry `n` times. -/
def neighbours {P D : Type} [LinearOrder D] (dist : P → P → D) (loc : P) : Nat → LedDict P → LedDict P
  | 0, _ => []
  | n + 1, d =>
    match firstMin (fun e => dist loc e.2) d with
    | none => []
    | some e => e :: neighbours dist loc n (LedDict.del d e.1)

/-- `_find_next_led`, /repo/ledsa/data_extraction/step_2_functions.py 110-145. `none` is the `ValueError` raised when
there is no LED or no neighbour left. -/
def findNextLed {P D : Type} [LinearOrder D] [Add D] [Mul D] (dist : P → P → D) (maxN : Nat) (w : D)
    (refLoc loc : P) (d : LedDict P) : Option (Nat × P) :=
  firstMin (fun e => w * dist refLoc e.2 + dist loc e.2) (neighbours dist loc (min maxN d.length) d)

/-- The walk along one LED array, /repo/ledsa/data_extraction/step_2_functions.py 59-85. One unit of fuel per round of
the `while` loop; the number of LEDs is enough fuel (`walk_fuel`). The branch for intermediate reference LEDs
(78-84) is unreachable because edge lists have two columns and the last one is tested first (73). Returns the array
and the remaining dictionary. -/
def walk {P D : Type} [LinearOrder D] [Add D] [Mul D] (dist : P → P → D) (maxN : Nat) (w : D) (lastId : Nat)
    (refLoc : P) : Nat → Nat → P → LedDict P → List Nat × LedDict P
  | 0, _, _, d => ([], d)
  | fuel + 1, id, loc, d =>
    if d.isEmpty then ([], d)
    else
      let d1 := d.del id
      match findNextLed dist maxN w refLoc loc d1 with
      | none => ([id], d1)
      | some (nid, nloc) =>
        if nid = lastId then ([id, nid], d1.del nid)
        else
          let r := walk dist maxN w lastId refLoc fuel nid nloc d1
          (id :: r.1, r.2)

/-- One LED array, /repo/ledsa/data_extraction/step_2_functions.py 43-95: both edge LEDs must still be there. -/
def matchOne {P D : Type} [LinearOrder D] [Add D] [Mul D] (dist : P → P → D) (maxN : Nat) (w : D)
    (edge : Int × Int) (d : LedDict P) : Except PyErr (List Nat × LedDict P) :=
  match d.findI edge.1, d.findI edge.2 with
  | some loc, some refLoc => .ok (walk dist maxN w edge.2.toNat refLoc d.length edge.1.toNat loc d)
  | _, _ => .error .valueError

/-- The loop over all arrays, /repo/ledsa/data_extraction/step_2_functions.py 43-95, and the LEDs that are reported as
not matched (97-104). -/
def matchAll {P D : Type} [LinearOrder D] [Add D] [Mul D] (dist : P → P → D) (maxN : Nat) (w : D) :
    List (Int × Int) → LedDict P → Except PyErr (List (List Nat) × LedDict P)
  | [], d => .ok ([], d)
  | e :: es, d =>
    match matchOne dist maxN w e d with
    | .error x => .error x
    | .ok (a, d1) =>
      match matchAll dist maxN w es d1 with
      | .error x => .error x
      | .ok (as, d2) => .ok (a :: as, d2)

/-- `_remove_ignored_leds`, /repo/ledsa/data_extraction/step_2_functions.py 259-286: `list.remove` of every ignored id
in every array (a missing id is no error). -/
def removeIgnored (arrays : List (List Nat)) (ignored : List Int) : List (List Nat) :=
  arrays.map fun a => ignored.foldl (fun acc (i : Int) => if 0 ≤ i then acc.erase i.toNat else acc) a

/-- `_get_indices_of_ignored_leds`, /repo/ledsa/data_extraction/step_2_functions.py 235-256: split at single blanks;
any failure yields the empty list. -/
def ignoredLeds (s : Str) : List Int :=
  if s = "None".toList then []
  else match (splitChar ' ' s).mapM pyInt with
    | .ok l => l
    | .error _ => []

/-- `match_leds_to_led_arrays`, /repo/ledsa/data_extraction/step_2_functions.py 8-107 (parameter `ignore_leds` left at
its default). The second component are the LEDs reported as not matched. -/
def matchLeds {P D : Type} [LinearOrder D] [Add D] [Mul D] (dist : P → P → D) (maxN : Nat) (w : D)
    (edges : List (Int × Int)) (ignore : Str) (table : LedDict P) : Except PyErr (List (List Nat) × List Nat) :=
  match matchAll dist maxN w edges table with
  | .error x => .error x
  | .ok (arrays, rest) => .ok (removeIgnored arrays (ignoredLeds ignore), rest.map (·.1))

/-- `reorder_led_indices`, /repo/ledsa/data_extraction/step_2_functions.py 316-347, from running start id `s`. -/
def reorderIndicesFrom : Nat → List (List Nat) → List (List Nat)
  | _, [] => []
  | s, a :: as => List.range' s a.length :: reorderIndicesFrom (s + a.length) as

/-- `reorder_led_indices`. -/
def reorderIndices (arrays : List (List Nat)) : List (List Nat) := reorderIndicesFrom 0 arrays

/-- `reorder_search_areas`, /repo/ledsa/data_extraction/step_2_functions.py 350-381: rows are selected by *row number*
(`search_areas[old_led_indices]`, `IndexError` if out of range) and renumbered. -/
def reorderSearchAreas {P : Type} (table : List (Nat × P)) (arrays : List (List Nat)) :
    Except PyErr (List (Nat × P)) :=
  match (arrays.flatten.mapM fun i => table[i]?) with
  | none => .error .indexError
  | some rows => .ok (rows.zipIdx.map fun e => (e.2, e.1.2))

/-- `merge_indices_of_led_arrays`, /repo/ledsa/data_extraction/step_2_functions.py 399-421, for a parsed merge
configuration: out of range numbers are skipped, empty groups are dropped. -/
def mergeArrays (arrays : List (List Nat)) (groups : List (List Int)) : List (List Nat) :=
  (groups.map fun g => g.flatMap fun (i : Int) =>
    if 0 ≤ i ∧ i < arrays.length then (arrays[i.toNat]?).getD [] else []).filter (fun a => a ≠ [])

/-- One index file, `generate_led_array_indices_files`, /repo/ledsa/data_extraction/step_2_functions.py 301-307:
reversed, one id per line. -/
def indexFile (a : List Nat) : Str := (a.reverse.map fun i => natStr i ++ ['\n']).flatten

/-- Name of the index file of array `i`, /repo/ledsa/data_extraction/step_2_functions.py 302. -/
def indexFileName (i : Nat) (ext : Str) : Str :=
  "led_array_indices_".toList ++ zfill 3 (natStr i) ++ ext ++ ".csv".toList

/-- Reading an index file with `read_table(..., dtype='int')`, /repo/ledsa/core/file_handling.py 74-113: one number
per non-empty line. -/
def readIndexFile (s : Str) : Except PyErr (List Int) :=
  ((splitChar '\n' s).filter (fun l => l ≠ [])).mapM pyInt

/-- Pairs of consecutive numbers, an odd last one is dropped: `get2dnparray(..., num_col=2)`,
/repo/ledsa/core/ConfigData.py 217-220. -/
def pairUp : List Int → List (Int × Int)
  | a :: b :: t => (a, b) :: pairUp t
  | _ => []

/-- `_get_indices_of_outer_leds` for a value that is already set,
/repo/ledsa/data_extraction/step_2_functions.py 206-232 with /repo/ledsa/core/ConfigData.py 191-221: any failure yields
an empty list of arrays. -/
def edgeIndices (s : Str) : List (Int × Int) :=
  match (splitWs s).mapM pyInt with
  | .ok l => pairUp l
  | .error _ => []

/-! ### Step 1 and step 2 as programs of file operations -/

/-- The LED table file and the flag `.reorder_leds.flag`. -/
structure Disk (T : Type) where
  table : Option T
  flag : Bool

/-- File operations of steps 1 and 2, /repo/ledsa/data_extraction/DataExtractor.py 109-111 and 165-172. Plots and index
files do not influence later runs of steps 1 and 2. -/
inductive Op (T : Type)
  | writeDetected (t : T)
  | writeRenumbered (t : T)
  | plot
  | setFlag
  | removeFlag
  | writeIndexFiles

/-- Effect of one operation. -/
def Op.exec {T : Type} (d : Disk T) : Op T → Disk T
  | .writeDetected t => { d with table := some t }
  | .writeRenumbered t => { d with table := some t }
  | .plot => d
  | .setFlag => { d with flag := true }
  | .removeFlag => { d with flag := false }
  | .writeIndexFiles => d

/-- Step 1, /repo/ledsa/data_extraction/DataExtractor.py 108-111, once the LEDs are detected. -/
def step1Ops {T : Type} (t : T) : List (Op T) := [.writeDetected t, .plot, .removeFlag]

/-- Step 2, /repo/ledsa/data_extraction/DataExtractor.py 163-172, once the LEDs are matched and reordered. -/
def step2Ops {T : Type} (t : T) : List (Op T) := [.writeRenumbered t, .plot, .setFlag, .writeIndexFiles, .plot]

/-- One invocation. `step2 f` : step 2 with a configuration under which a table `t` is turned into `f t` (or the
matching fails). The number is the number of file operations carried out before the run is interrupted. -/
inductive Cmd (T : Type)
  | step1 (t : T) (upTo : Nat)
  | step2 (f : T → Except PyErr T) (upTo : Nat)

/-- What an observer sees: table files written and tables used as input of step 2. -/
inductive Event (T : Type)
  | detected (t : T)
  | renumbered (t : T)
  | processed (t : T)
  | refused

/-- Events of an operation. -/
def Op.events {T : Type} : Op T → List (Event T)
  | .writeDetected t => [.detected t]
  | .writeRenumbered t => [.renumbered t]
  | _ => []

/-- Operations and events of one invocation, /repo/ledsa/data_extraction/DataExtractor.py 91-111, 152-173: step 2 exits
if the flag is set, fails if there is no table. -/
def Cmd.run {T : Type} (d : Disk T) : Cmd T → Disk T × List (Event T)
  | .step1 t k =>
    let ops := (step1Ops t).take k
    (ops.foldl Op.exec d, ops.flatMap Op.events)
  | .step2 f k =>
    if d.flag then (d, [.refused])
    else match d.table with
      | none => (d, [])
      | some t =>
        match f t with
        | .error _ => (d, [.processed t])
        | .ok t' =>
          let ops := (step2Ops t').take k
          (ops.foldl Op.exec d, .processed t :: ops.flatMap Op.events)

/-- A history of invocations. -/
def runAll {T : Type} : Disk T → List (Cmd T) → Disk T × List (Event T)
  | d, [] => (d, [])
  | d, c :: cs =>
    let r := c.run d
    let r' := runAll r.1 cs
    (r'.1, r.2 ++ r'.2)

/-- What step 2 makes of an LED table, /repo/ledsa/data_extraction/DataExtractor.py 161-164. -/
def step2Table {P D : Type} [LinearOrder D] [Add D] [Mul D] (dist : P → P → D) (maxN : Nat) (w : D)
    (edges ignore : Str) (table : List (Nat × P)) : Except PyErr (List (Nat × P)) :=
  match matchLeds dist maxN w (edgeIndices edges) ignore table with
  | .error x => .error x
  | .ok (arrays, _) => reorderSearchAreas table arrays

end Ledsa
