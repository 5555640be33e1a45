import Verif.Py.Basic
import Mathlib.Analysis.SpecialFunctions.Sqrt
/-
Model of `ledpositions/coordinates.py` over the real numbers, and of the join of coordinates and results in
`core/file_handling.py`. Floating point rounding is not modelled; `scipy.linalg.solve` is its exact solution, singular
matrices raise `LinAlgError`.
-/
namespace Ledsa

/-- A pixel position (row, column). -/
abbrev P2 := ℝ × ℝ

/-- A point in the room. -/
abbrev P3 := ℝ × ℝ × ℝ

/-- `np.array([top.pix_pos, bot.pix_pos])`: its determinant. -/
def pixDet (top bot : P2) : ℝ := top.1 * bot.2 - top.2 * bot.1

/-- First and second row of the solution `X` of `a X = b`, /repo/ledsa/ledpositions/coordinates.py 40-42, by Cramer's
rule; `a` has the rows `top`, `bot`, `b` the rows `posTop`, `posBot`. -/
noncomputable def solveRows (top bot : P2) (posTop posBot : P3) : P3 × P3 :=
  let d := pixDet top bot
  (((bot.2 * posTop.1 - top.2 * posBot.1) / d, (bot.2 * posTop.2.1 - top.2 * posBot.2.1) / d,
      (bot.2 * posTop.2.2 - top.2 * posBot.2.2) / d),
   ((top.1 * posBot.1 - bot.1 * posTop.1) / d, (top.1 * posBot.2.1 - bot.1 * posTop.2.1) / d,
      (top.1 * posBot.2.2 - bot.1 * posTop.2.2) / d))

open Classical in
/-- `conversion_matrix`, /repo/ledsa/ledpositions/coordinates.py 31-43, as the two rows of `X` (the columns of the returned
matrix). -/
noncomputable def conversionMatrix (top bot : P2) (posTop posBot : P3) : Except PyErr (P3 × P3) :=
  if pixDet top bot = 0 then .error .linAlgError else .ok (solveRows top bot posTop posBot)

/-- `x @ pix_pos`, /repo/ledsa/ledpositions/coordinates.py 115. -/
noncomputable def applyConv (x : P3 × P3) (p : P2) : P3 :=
  (x.1.1 * p.1 + x.2.1 * p.2, x.1.2.1 * p.1 + x.2.2.1 * p.2, x.1.2.2 * p.1 + x.2.2.2 * p.2)

/-- Dot product of pixel vectors. -/
def dot2 (p q : P2) : ℝ := p.1 * q.1 + p.2 * q.2

/-- `_orth_projection`, /repo/ledsa/ledpositions/coordinates.py 139-160. -/
noncomputable def orthProjection (point dir onLine : P2) : P2 :=
  let n := Real.sqrt (dot2 dir dir)
  let hat : P2 := (dir.1 / n, dir.2 / n)
  let pos : P2 := (onLine.1 - dot2 onLine hat * hat.1, onLine.2 - dot2 onLine hat * hat.2)
  (dot2 point hat * hat.1 + pos.1, dot2 point hat * hat.2 + pos.2)

/-- The coordinates of one array, /repo/ledsa/ledpositions/coordinates.py 91-117: `pix` are the pixel positions in the
order of the index file, `first`/`second` the two coordinate triples of the array. The "top" LED is the last one of the
file (lines 96-99), the "bottom" LED its first one (102-105). An empty file raises `IndexError`. -/
noncomputable def arrayCoordinates (pix : List P2) (first second : P3) : Except PyErr (List P3) :=
  match pix.getLast?, pix.head? with
  | some top, some bot =>
    match conversionMatrix top bot first second with
    | .error e => .error e
    | .ok x => .ok (pix.map fun p => applyConv x (orthProjection p (bot.1 - top.1, bot.2 - top.2) top))
  | _, _ => .error .indexError

/-! ### 2D coordinates -/

/-- A plane `a x + b y + d = 0` parallel to the z axis, /repo/ledsa/ledpositions/coordinates.py 174-176. -/
structure Plane where
  a : ℝ
  b : ℝ
  d : ℝ

/-- `_project_points_to_plane` for one point, /repo/ledsa/ledpositions/coordinates.py 190-195. -/
noncomputable def projectToPlane (pl : Plane) (p : P3) : P3 :=
  let t := -(pl.a * p.1 + pl.b * p.2.1 + pl.d) / (pl.a ^ 2 + pl.b ^ 2)
  (p.1 + pl.a * t, p.2.1 + pl.b * t, p.2.2 + 0 * t)

/-- Width of one point before the shift, /repo/ledsa/ledpositions/coordinates.py 213-216. -/
noncomputable def rawWidth (pl : Plane) (p : P3) : ℝ :=
  let y := p.2.1 + pl.d / pl.b
  Real.sqrt (p.1 ^ 2 + y ^ 2) / ((0 * pl.a + 1 * pl.b) / Real.sqrt (pl.a ^ 2 + pl.b ^ 2))

/-- Minimum of a list; `np.min` of an empty array raises `ValueError`. -/
noncomputable def listMin : List ℝ → Except PyErr ℝ
  | [] => .error .valueError
  | v :: vs => .ok (vs.foldl min v)

/-- `_get_plane_coordinates`, /repo/ledsa/ledpositions/coordinates.py 199-222: (width, height) of every point. -/
noncomputable def planeCoordinates (pl : Plane) (ps : List P3) : Except PyErr (List (ℝ × ℝ)) :=
  match listMin (ps.map (rawWidth pl)) with
  | .error e => .error e
  | .ok m => .ok (ps.map fun p => (rawWidth pl p - m, p.2.2))

/-- The array handed to `_calculate_2d_coordinates` as a list of rows, and the points used by it (columns after the
possible transposition), /repo/ledsa/ledpositions/coordinates.py 132-133. Only arrays with three columns occur
(line 61). -/
def columnsAsPoints (rows : List P3) : List P3 :=
  match rows with
  | [r, s, t] => [(r.1, s.1, t.1), (r.2.1, s.2.1, t.2.1), (r.2.2, s.2.2, t.2.2)]
  | _ => rows

/-- `_calculate_2d_coordinates`, /repo/ledsa/ledpositions/coordinates.py 123-136. The fitted plane is a parameter (a function
of the points); `curve_fit` raises `TypeError` for fewer points than its three parameters. -/
noncomputable def coordinates2d (fit : List P3 → Plane) (rows : List P3) : Except PyErr (List (ℝ × ℝ)) :=
  let ps := columnsAsPoints rows
  if ps.length < 3 then .error .typeError
  else planeCoordinates (fit ps) (ps.map (projectToPlane (fit ps)))

/-! ### Join -/

/-- `_append_coordinates_to_params`, /repo/ledsa/core/file_handling.py 379-400. A result row is (LED id, values), a
coordinate row (LED id, width and height). With equal row counts the tables are joined by position; otherwise the
coordinate rows whose id occurs among the results are taken, and `np.reshape` raises `ValueError` if their number
differs. -/
def appendCoordinates {V C : Type} (params : List (Nat × V)) (coord : List (Nat × C)) :
    Except PyErr (List (Nat × V × C)) :=
  let sel := if params.length = coord.length then coord else coord.filter (fun c => c.1 ∈ params.map (·.1))
  if sel.length = params.length then .ok ((params.zip sel).map fun x => (x.1.1, x.1.2, x.2.2)) else .error .valueError

/-- Insertion of a row by id. -/
def insertRow {V : Type} (r : Nat × V) : List (Nat × V) → List (Nat × V)
  | [] => [r]
  | s :: rs => if r.1 ≤ s.1 then r :: s :: rs else s :: insertRow r rs

/-- `parameters[parameters[:, 0].argsort()]`, /repo/ledsa/core/file_handling.py 259, for distinct ids. -/
def sortRows {V : Type} : List (Nat × V) → List (Nat × V)
  | [] => []
  | r :: rs => insertRow r (sortRows rs)

/-- The rows of one image with coordinates, /repo/ledsa/core/file_handling.py 259-260. -/
def loadWithCoordinates {V C : Type} (params : List (Nat × V)) (coord : List (Nat × C)) :
    Except PyErr (List (Nat × V × C)) := appendCoordinates (sortRows params) coord

end Ledsa
