import Verif.Model.Coordinates
import Verif.Model.Session
import Verif.Model.Alignment
import Mathlib.Algebra.Order.Round
/-
Model of the command `--coordinates` as a whole, `/repo/ledsa/ledpositions/coordinates.py`: from the files of step 2 and the
measured coordinates of the edge LEDs to the file `led_search_areas_with_coordinates.csv`. Over the real numbers; the numbers of
the file are rounded to six decimals.
-/
namespace Ledsa

/-- `np.where(search_areas[:, 0] == led)[0]` and `np.array([search_areas[idx, 1], search_areas[idx, 2]])`,
/repo/ledsa/ledpositions/coordinates.py 97-99, 103-105, 113-114. For no row or several rows with the id the array has the wrong shape for
what follows (`reshape` in line 40, `dot` in line 159): `ValueError`. -/
def pixelOf (areas : LedTable) (id : ℤ) : Except PyErr P2 :=
  match areas.filter (fun r => (r.1 : ℤ) = id) with
  | [r] => .ok ((r.2.1 : ℝ), (r.2.2 : ℝ))
  | _ => .error .valueError

/-- `search_areas[idx, -3:] = pos`, /repo/ledsa/ledpositions/coordinates.py 117, for the LEDs of one array. The columns are a
function of the LED id. -/
def place (σ : ℤ → P3) (new : List (ℤ × P3)) : ℤ → P3 := fun id =>
  match new.find? (fun e => e.1 = id) with
  | some e => e.2
  | none => σ id

/-- The body of the loop over the LED arrays, /repo/ledsa/ledpositions/coordinates.py 91-117. `index k` is the content of the index
file of array `k`, `edges` the rows of `led_array_edge_coordinates`. -/
noncomputable def placeArray (areas : LedTable) (index : ℕ → Except PyErr (List ℤ)) (edges : List (P3 × P3)) (σ : ℤ → P3) (k : ℕ) :
    Except PyErr (ℤ → P3) := do
  let ids ← index k
  match ids.getLast?, ids.head?, edges[k]? with
  | some top, some bot, some e => do
    let pt ← pixelOf areas top
    let pb ← pixelOf areas bot
    let _ ← conversionMatrix pt pb e.1 e.2
    let pix ← ids.mapM (pixelOf areas)
    let ps ← arrayCoordinates pix e.1 e.2
    .ok (place σ (ids.zip ps))
  | _, _, _ => .error .indexError

/-- `_calculate_3d_coordinates`, /repo/ledsa/ledpositions/coordinates.py 72-118, for a table and options that can be read: the room
coordinates as a function of the LED id. A table of at most one row has one dimension, `np.pad` raises `ValueError` (line 82). The
new columns are filled with -1 before. -/
noncomputable def coordinates3d (areas : LedTable) (index : ℕ → Except PyErr (List ℤ)) (num : ℤ) (edges : List (P3 × P3)) :
    Except PyErr (ℤ → P3) :=
  if areas.length ≤ 1 then .error .valueError
  else (List.range num.toNat).foldlM (placeArray areas index edges) fun _ => (-1, -1, -1)

/-- `%f`: six decimals. -/
noncomputable def fixed6 (x : ℝ) : ℝ := (round (x * 10 ^ 6) : ℝ) / 10 ^ 6

/-- `%f,%f,%f`. -/
noncomputable def fixed6P (p : P3) : P3 := (fixed6 p.1, fixed6 p.2.1, fixed6 p.2.2)

/-- A row of `led_search_areas_with_coordinates.csv`. -/
structure CoordRow where
  id : ℕ
  pix : ℤ × ℤ
  pos : P3
  width : ℝ
  height : ℝ

/-- `calculate_coordinates`, /repo/ledsa/ledpositions/coordinates.py 57-66, on the files of steps 1 and 2: the rows of the file
written. `fit` is the plane fit (`coordinates2d`). -/
noncomputable def calculateCoordinates (fit : List P3 → Plane) (num : ℤ) (edges : List (P3 × P3)) (d : ExtDisk) :
    Except PyErr (List CoordRow) := do
  let text ← match d.areas with
    | none => .error .fileNotFound
    | some text => .ok text
  let t ← loadTable text
  let σ ← coordinates3d t (fun (k : ℕ) => loadIndexFile (d.index (indexFileName k []))) num edges
  let wh ← coordinates2d fit (t.map fun r => σ r.1)
  .ok ((t.zip wh).map fun x => ⟨x.1.1, x.1.2, fixed6P (σ x.1.1), fixed6 x.2.1, fixed6 x.2.2⟩)

/-- `get_led_positions`, /repo/ledsa/analysis/Experiment.py 307-314, from the file written: rows are taken by their number. -/
def positionsFor (rows : List CoordRow) (ids : List ℕ) : Except PyErr (List P3) := ledPositions (rows.map (·.pos)) ids

/-! ### The plane fit -/

/-- The residual sum of squares of `_fit_plane`, /repo/ledsa/ledpositions/coordinates.py 171-174. -/
noncomputable def planeLoss (ps : List P3) (pl : Plane) : ℝ :=
  (ps.map fun p => (p.2.1 - -1 / pl.b * (pl.a * p.1 + pl.d)) ^ 2).sum

/-- What `curve_fit` looks for, /repo/ledsa/ledpositions/coordinates.py 174: a plane of least squares. The three parameters are only
determined up to a factor. That the optimiser finds such a plane is an assumption. -/
def IsFit (ps : List P3) (pl : Plane) : Prop := pl.b ≠ 0 ∧ ∀ q : Plane, q.b ≠ 0 → planeLoss ps pl ≤ planeLoss ps q

end Ledsa
