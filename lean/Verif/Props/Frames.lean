import Verif.Props.Geometry
import Verif.Props.Coordinates
import Verif.Props.NonlinearRun
import Verif.Model.Positions

/-!
# The coordinate system of the room (C147)

Positions of the camera and of the edge LEDs are measured in a coordinate system the user chooses. What the analysis finds must not
depend on this choice.
-/

namespace Ledsa

/-- A change of the coordinate system: turn in the plan by the angle with cosine `a` and sine `b`, possibly mirrored (`s = -1`), and
another origin. Heights are only shifted, since the layers are horizontal. -/
structure RoomFrame where
  a : ℝ
  b : ℝ
  s : ℝ
  u : ℝ
  v : ℝ
  h : ℝ

/-- The change keeps lengths. -/
structure RoomFrame.Rigid (F : RoomFrame) : Prop where
  turn : F.a ^ 2 + F.b ^ 2 = 1
  mirror : F.s ^ 2 = 1

/-- The new coordinates of a point. -/
def RoomFrame.point (F : RoomFrame) (p : P3) : P3 :=
  (F.a * p.1 - F.s * F.b * p.2.1 + F.u, F.b * p.1 + F.s * F.a * p.2.1 + F.v, p.2.2 + F.h)

theorem RoomFrame.plan (F : RoomFrame) (hF : F.Rigid) (p q : P3) :
    ((F.point p).1 - (F.point q).1) ^ 2 + ((F.point p).2.1 - (F.point q).2.1) ^ 2 = (p.1 - q.1) ^ 2 + (p.2.1 - q.2.1) ^ 2 := by
  obtain ⟨h1, h2⟩ := hF
  have e : ((F.point p).1 - (F.point q).1) ^ 2 + ((F.point p).2.1 - (F.point q).2.1) ^ 2 =
      (F.a ^ 2 + F.b ^ 2) * (p.1 - q.1) ^ 2 + F.s ^ 2 * (F.a ^ 2 + F.b ^ 2) * (p.2.1 - q.2.1) ^ 2 := by
    simp only [RoomFrame.point]; ring
  rw [e, h1, h2]; ring

theorem RoomFrame.horizontal (F : RoomFrame) (hF : F.Rigid) (p q : P3) : horizontalDist (F.point p) (F.point q) = horizontalDist p q := by
  unfold horizontalDist
  rw [F.plan hF]

theorem RoomFrame.euclid (F : RoomFrame) (hF : F.Rigid) (p q : P3) : Ledsa.euclid (F.point p) (F.point q) = Ledsa.euclid p q := by
  unfold Ledsa.euclid
  rw [F.plan hF]
  have : (F.point p).2.2 - (F.point q).2.2 = p.2.2 - q.2.2 := by simp only [RoomFrame.point]; ring
  rw [this]

theorem RoomFrame.angle (F : RoomFrame) (hF : F.Rigid) (p q : P3) : alpha (F.point p) (F.point q) = alpha p q := by
  unfold alpha
  rw [F.horizontal hF]
  have : (F.point q).2.2 - (F.point p).2.2 = q.2.2 - p.2.2 := by simp only [RoomFrame.point]; ring
  rw [this]
  simp only [RoomFrame.point, add_lt_add_iff_right]

/-- A layer in the new coordinates. -/
def RoomFrame.layer (F : RoomFrame) (l : Layer) : Layer := ⟨l.bottom + F.h, l.top + F.h⟩

theorem RoomFrame.layers (F : RoomFrame) (lo hi : ℝ) (n : ℕ) : Ledsa.layers (lo + F.h) (hi + F.h) n = (Ledsa.layers lo hi n).map F.layer := by
  unfold Ledsa.layers
  rw [List.map_map]
  refine List.map_congr_left fun i _ => ?_
  simp only [Function.comp_apply, RoomFrame.layer, border, Layer.mk.injEq]
  constructor <;> ring

theorem RoomFrame.height (F : RoomFrame) (c l b t : ℝ) : heightInLayer (c + F.h) (l + F.h) (b + F.h) (t + F.h) = heightInLayer c l b t := by
  unfold heightInLayer
  simp only [max_add_add_right, min_add_add_right, add_sub_add_right_eq_sub]

theorem RoomFrame.perLayer (F : RoomFrame) (hF : F.Rigid) (cam led : P3) (ls : List Layer) :
    distPerLayer (F.point cam) (F.point led) (ls.map F.layer) = distPerLayer cam led ls := by
  unfold distPerLayer
  rw [F.angle hF]
  have e1 : distInPlane (F.point cam) (F.point led) (ls.map F.layer) = distInPlane cam led ls := by
    unfold distInPlane
    rw [List.map_map]
    refine List.map_congr_left fun l _ => ?_
    simp only [Function.comp_apply, F.horizontal hF, RoomFrame.layer]
    simp only [RoomFrame.point, add_le_add_iff_right, add_lt_add_iff_right]
  have e2 : ∀ a, distNonzeroAlpha a (F.point cam) (F.point led) (ls.map F.layer) = distNonzeroAlpha a cam led ls := by
    intro a
    unfold distNonzeroAlpha
    rw [List.map_map]
    refine List.map_congr_left fun l _ => ?_
    simp only [Function.comp_apply, RoomFrame.layer]
    rw [show (F.point cam).2.2 = cam.2.2 + F.h from rfl, show (F.point led).2.2 = led.2.2 + F.h from rfl, F.height]
  unfold checked
  simp only [e1, e2, F.euclid hF]

/-- **C147, one LED**: the lengths in the layers do not depend on the coordinate system. -/
theorem C147_ray (F : RoomFrame) (hF : F.Rigid) (cam led : P3) (lo hi : ℝ) (n : ℕ) :
    distPerLayer (F.point cam) (F.point led) (layers (lo + F.h) (hi + F.h) n) = distPerLayer cam led (layers lo hi n) := by
  rw [F.layers, F.perLayer hF]

/-- The same analysis in the new coordinates. -/
def RoomFrame.analysis (F : RoomFrame) (a : ArrayAnalysis) : ArrayAnalysis :=
  { a with cam := F.point a.cam, lo := a.lo + F.h, hi := a.hi + F.h, coordinates := a.coordinates.map F.point }

theorem mapM_getElem?_map {α β : Type} (f : α → β) (t : List α) (ids : List ℕ) :
    (ids.mapM fun i => (t.map f)[i]?) = (ids.mapM fun i => t[i]?).map (List.map f) := by
  induction ids with
  | nil => rfl
  | cons x xs ih =>
    rw [List.mapM_cons, List.mapM_cons, ih, List.getElem?_map]
    cases t[x]? with
    | none => rfl
    | some y => cases xs.mapM fun i => t[i]? <;> rfl

theorem ledPositions_map {α β : Type} (f : α → β) (t : List α) (ids : List ℕ) :
    ledPositions (t.map f) ids = (ledPositions t ids).map (List.map f) := by
  unfold ledPositions
  rw [mapM_getElem?_map]
  cases ids.mapM fun i => t[i]? <;> rfl

theorem RoomFrame.input (F : RoomFrame) (hF : F.Rigid) (a : ArrayAnalysis) (data : Except PyErr (ImgData ℝ)) :
    (F.analysis a).inputOf data = a.inputOf data := by
  unfold ArrayAnalysis.inputOf
  have e : ∀ leds : List P3, distanceArray (F.analysis a).cam (Ledsa.layers (F.analysis a).lo (F.analysis a).hi (F.analysis a).layers)
      (leds.map F.point) = distanceArray a.cam (Ledsa.layers a.lo a.hi a.layers) leds := by
    intro leds
    unfold distanceArray distanceRows
    rw [← List.map_reverse, List.map_map]
    refine List.map_congr_left fun p _ => ?_
    simp only [Function.comp_apply, RoomFrame.analysis, C147_ray F hF]
  rw [show (F.analysis a).coordinates = a.coordinates.map F.point from rfl, show (F.analysis a).ids = a.ids from rfl, ledPositions_map]
  cases ledPositions a.coordinates a.ids with
  | error x => rfl
  | ok leds =>
    cases data with
    | error x => rfl
    | ok d =>
      simp only [bind, Except.bind, Except.map, e]
      rfl

/-- **C147, analysis of an array**: whatever values were measured, the possible results are the same in both coordinate systems,
with both solvers, including the failures. -/
theorem C147_array (F : RoomFrame) (hF : F.Rigid) (a : ArrayAnalysis) (data : Except PyErr (ImgData ℝ)) (o : NonlinearOptions)
    (r : Except PyErr (List (Fin a.layers → ℝ))) :
    ((F.analysis a).ResultOf ((F.analysis a).inputOf data) r ↔ a.ResultOf (a.inputOf data) r) ∧
    ((F.analysis a).NonlinearResultOf o ((F.analysis a).inputOf data) r ↔ a.NonlinearResultOf o (a.inputOf data) r) := by
  rw [F.input hF]
  exact ⟨Iff.rfl, Iff.rfl⟩

/-! ### Coordinates of the LEDs from the edge LEDs -/

theorem RoomFrame.lerp (F : RoomFrame) (T B : P3) (s : ℝ) : F.point (lerp3 T B s) = lerp3 (F.point T) (F.point B) s := by
  simp only [RoomFrame.point, lerp3, Prod.mk.injEq]
  refine ⟨?_, ?_, ?_⟩ <;> ring

theorem RoomFrame.converted (F : RoomFrame) (top bot : P2) (h : pixDet top bot ≠ 0) (T B : P3) (p : P2) :
    applyConv (solveRows top bot (F.point T) (F.point B)) (orthProjection p (bot.1 - top.1, bot.2 - top.2) top) =
      F.point (applyConv (solveRows top bot T B) (orthProjection p (bot.1 - top.1, bot.2 - top.2) top)) := by
  rw [orthProjection_eq p _ _ (dir_ne_zero h)]
  exact (conv_lerp top bot (F.point T) (F.point B) h _).trans
    ((F.lerp T B _).symm.trans (congrArg F.point (conv_lerp top bot T B h _).symm))

theorem RoomFrame.line (F : RoomFrame) (pix : List P2) (T B : P3) :
    arrayCoordinates pix (F.point T) (F.point B) = (arrayCoordinates pix T B).map (List.map F.point) := by
  unfold arrayCoordinates
  cases ht : pix.getLast? with
  | none => rfl
  | some top =>
    cases hb : pix.head? with
    | none => rfl
    | some bot =>
      simp only [conversionMatrix]
      by_cases h : pixDet top bot = 0
      · simp only [if_pos h]; rfl
      · simp only [if_neg h, Except.map, List.map_map, Except.ok.injEq]
        exact List.map_congr_left fun p _ => F.converted top bot h T B p

/-- Coordinates as a function of the LED id, with the LEDs in `S` in the new coordinates. -/
noncomputable def RoomFrame.positions (F : RoomFrame) (S : Set ℤ) (σ : ℤ → P3) : ℤ → P3 :=
  open Classical in fun id => if id ∈ S then F.point (σ id) else σ id

theorem find_zip_none (ids : List ℤ) : ∀ (ps : List P3) (id : ℤ), id ∉ ids → (ids.zip ps).find? (fun e => e.1 = id) = none := by
  intro ps id h
  rw [List.find?_eq_none]
  intro e he
  have := (List.of_mem_zip he).1
  simp only [decide_eq_true_eq]
  rintro rfl
  exact h this

theorem find_zip_some (ids : List ℤ) : ∀ (ps : List P3), ps.length = ids.length → ∀ id ∈ ids,
    ∃ e, (ids.zip ps).find? (fun e => e.1 = id) = some e := by
  intro ps hl id h
  rw [← Option.isSome_iff_exists, List.find?_isSome]
  obtain ⟨i, hi⟩ := List.mem_iff_getElem?.1 h
  have hlt : i < ids.length := (List.getElem?_eq_some_iff.1 hi).1
  refine ⟨(id, ps[i]'(by omega)), ?_, by simp⟩
  rw [List.mem_iff_getElem?]
  refine ⟨i, ?_⟩
  rw [List.getElem?_zip_eq_some]
  exact ⟨hi, List.getElem?_eq_getElem _⟩

theorem find_zip_map (f : P3 → P3) (id : ℤ) (ids : List ℤ) : ∀ ps : List P3,
    (ids.zip (ps.map f)).find? (fun e => e.1 = id) = ((ids.zip ps).find? (fun e => e.1 = id)).map fun e => (e.1, f e.2) := by
  induction ids with
  | nil => intro ps; rfl
  | cons x xs ih =>
    intro ps
    cases ps with
    | nil => rfl
    | cons q qs =>
      simp only [List.map_cons, List.zip_cons_cons, List.find?_cons]
      by_cases h : x = id
      · simp [h]
      · simp only [h, decide_false]
        exact ih qs

theorem RoomFrame.placed (F : RoomFrame) (S : Set ℤ) (σ : ℤ → P3) (ids : List ℤ) (ps : List P3) (hl : ps.length = ids.length) :
    place (F.positions S σ) (ids.zip (ps.map F.point)) = F.positions (S ∪ {x | x ∈ ids}) (place σ (ids.zip ps)) := by
  funext id
  unfold place
  rw [find_zip_map]
  by_cases h : id ∈ ids
  · obtain ⟨e, he⟩ := find_zip_some ids ps hl id h
    simp only [he, Option.map_some, RoomFrame.positions]
    have hm : id ∈ S ∪ {x | x ∈ ids} := Or.inr h
    rw [if_pos hm]
  · have hm : id ∈ S ∪ {x | x ∈ ids} ↔ id ∈ S := ⟨fun x => x.resolve_right h, Or.inl⟩
    simp only [find_zip_none ids ps id h, Option.map_none, RoomFrame.positions]
    by_cases hS : id ∈ S
    · rw [if_pos hS, if_pos (hm.2 hS)]
    · rw [if_neg hS, if_neg fun x => hS (hm.1 x)]

theorem mapM_length {α β : Type} (f : α → Except PyErr β) : ∀ (l : List α) (r : List β), l.mapM f = .ok r → r.length = l.length := by
  intro l
  induction l with
  | nil => intro r h; cases h; rfl
  | cons x xs ih =>
    intro r h
    rw [List.mapM_cons] at h
    cases hx : f x with
    | error e => rw [hx] at h; cases h
    | ok y =>
      rw [hx] at h
      cases hr : xs.mapM f with
      | error e => rw [hr] at h; cases h
      | ok ys => rw [hr] at h; cases h; simp [ih ys hr]

/-- The LEDs of the first `n` arrays. -/
def ledsOfArrays (index : ℕ → Except PyErr (List ℤ)) (ks : List ℕ) : Set ℤ := {x | ∃ k ∈ ks, ∃ ids, index k = .ok ids ∧ x ∈ ids}

theorem RoomFrame.step (F : RoomFrame) (areas : LedTable) (index : ℕ → Except PyErr (List ℤ)) (edges : List (P3 × P3)) (S : Set ℤ)
    (σ : ℤ → P3) (k : ℕ) :
    placeArray areas index (edges.map fun e => (F.point e.1, F.point e.2)) (F.positions S σ) k =
      (placeArray areas index edges σ k).map (F.positions (S ∪ ledsOfArrays index [k])) := by
  unfold placeArray
  cases hk : index k with
  | error e => rfl
  | ok ids =>
    have hS : ledsOfArrays index [k] = {x | x ∈ ids} := by
      ext x
      simp [ledsOfArrays, hk]
    rw [hS]
    simp only [bind, Except.bind, List.getElem?_map]
    cases ids.getLast? with
    | none => rfl
    | some top =>
      cases ids.head? with
      | none => rfl
      | some bot =>
        cases edges[k]? with
        | none => rfl
        | some e =>
          simp only [Option.map_some]
          cases pixelOf areas top with
          | error e => rfl
          | ok pt =>
            cases pixelOf areas bot with
            | error e => rfl
            | ok pb =>
              simp only [conversionMatrix]
              by_cases hd : pixDet pt pb = 0
              · simp only [if_pos hd]; rfl
              · simp only [if_neg hd]
                cases hp : ids.mapM (pixelOf areas) with
                | error e => rfl
                | ok pix =>
                  simp only [F.line]
                  cases ha : arrayCoordinates pix e.1 e.2 with
                  | error e => rfl
                  | ok ps =>
                    simp only [Except.map, Except.ok.injEq]
                    refine F.placed S σ ids ps ?_
                    rw [← mapM_length _ _ _ hp]
                    unfold arrayCoordinates at ha
                    split at ha
                    · split at ha
                      · cases ha
                      · cases ha; simp
                    · cases ha

theorem RoomFrame.loop (F : RoomFrame) (areas : LedTable) (index : ℕ → Except PyErr (List ℤ)) (edges : List (P3 × P3)) (ks : List ℕ) :
    ∀ (S : Set ℤ) (σ : ℤ → P3),
    ks.foldlM (placeArray areas index (edges.map fun e => (F.point e.1, F.point e.2))) (F.positions S σ) =
      (ks.foldlM (placeArray areas index edges) σ).map (F.positions (S ∪ ledsOfArrays index ks)) := by
  induction ks with
  | nil =>
    intro S σ
    have : ledsOfArrays index [] = ∅ := by ext x; simp [ledsOfArrays]
    rw [this, Set.union_empty]; rfl
  | cons k ks ih =>
    intro S σ
    rw [List.foldlM_cons, List.foldlM_cons, F.step]
    have hS : S ∪ ledsOfArrays index (k :: ks) = (S ∪ ledsOfArrays index [k]) ∪ ledsOfArrays index ks := by
      ext x; simp [ledsOfArrays, or_assoc]
    rw [hS]
    cases placeArray areas index edges σ k with
    | error e => rfl
    | ok τ => exact ih _ τ

/-- **C147, coordinates command**: with the edge LEDs measured in the new coordinate system every LED of an array gets its old
position expressed in the new coordinate system; LEDs of no array keep their -1. It fails in one system if and only if it fails in
the other. -/
theorem C147_coordinates (F : RoomFrame) (areas : LedTable) (index : ℕ → Except PyErr (List ℤ)) (num : ℤ) (edges : List (P3 × P3)) :
    coordinates3d areas index num (edges.map fun e => (F.point e.1, F.point e.2)) =
      (coordinates3d areas index num edges).map (F.positions (ledsOfArrays index (List.range num.toNat))) := by
  unfold coordinates3d
  split
  · rfl
  · have h := F.loop areas index edges (List.range num.toNat) ∅ fun _ => (-1, -1, -1)
    rw [Set.empty_union] at h
    rw [← h]
    congr 1
    funext id
    simp [RoomFrame.positions]

/-- **C147, from the measured edge LEDs to the coefficients**: with the coordinates of an array calculated in either system, the
possible results of its analysis are the same. (The file rounds coordinates to six decimals; see C130 for its effect.) -/
theorem C147_measured (F : RoomFrame) (hF : F.Rigid) (areas : LedTable) (index : ℕ → Except PyErr (List ℤ)) (num : ℤ)
    (edges : List (P3 × P3)) (σ : ℤ → P3) (hσ : coordinates3d areas index num edges = .ok σ) (a : ArrayAnalysis)
    (ha : a.coordinates = areas.map fun r => σ r.1)
    (hall : ∀ r ∈ areas, ∃ k < num.toNat, ∃ ids, index k = .ok ids ∧ (r.1 : ℤ) ∈ ids)
    (data : Except PyErr (ImgData ℝ)) (o : NonlinearOptions) :
    ∃ σ', coordinates3d areas index num (edges.map fun e => (F.point e.1, F.point e.2)) = .ok σ' ∧
      ∀ r, let a' : ArrayAnalysis := { a with cam := F.point a.cam, lo := a.lo + F.h, hi := a.hi + F.h, coordinates := areas.map fun r => σ' r.1 }
        (a'.ResultOf (a'.inputOf data) r ↔ a.ResultOf (a.inputOf data) r) ∧
        (a'.NonlinearResultOf o (a'.inputOf data) r ↔ a.NonlinearResultOf o (a.inputOf data) r) := by
  refine ⟨_, by rw [C147_coordinates, hσ]; rfl, ?_⟩
  have e : (areas.map fun r => F.positions (ledsOfArrays index (List.range num.toNat)) σ r.1) = a.coordinates.map F.point := by
    rw [ha, List.map_map]
    refine List.map_congr_left fun r hr => ?_
    obtain ⟨k, hk, ids, h1, h2⟩ := hall r hr
    simp only [RoomFrame.positions, Function.comp_apply]
    rw [if_pos ⟨k, List.mem_range.2 hk, ids, h1, h2⟩]
  intro r
  simp only [e]
  exact C147_array F hF a data o r

/-! ### The unit of length -/

/-- A point in another unit of length: `k` new units are one old unit. -/
def inUnit (k : ℝ) (p : P3) : P3 := (k * p.1, k * p.2.1, k * p.2.2)

theorem horizontal_inUnit (k : ℝ) (hk : 0 < k) (p q : P3) : horizontalDist (inUnit k p) (inUnit k q) = k * horizontalDist p q := by
  unfold horizontalDist inUnit
  rw [show (k * p.1 - k * q.1) ^ 2 + (k * p.2.1 - k * q.2.1) ^ 2 = k ^ 2 * ((p.1 - q.1) ^ 2 + (p.2.1 - q.2.1) ^ 2) by ring,
    Real.sqrt_mul (sq_nonneg k), Real.sqrt_sq hk.le]

theorem euclid_inUnit (k : ℝ) (hk : 0 < k) (p q : P3) : euclid (inUnit k p) (inUnit k q) = k * euclid p q := by
  unfold euclid inUnit
  rw [show (k * p.1 - k * q.1) ^ 2 + (k * p.2.1 - k * q.2.1) ^ 2 + (k * p.2.2 - k * q.2.2) ^ 2 =
    k ^ 2 * ((p.1 - q.1) ^ 2 + (p.2.1 - q.2.1) ^ 2 + (p.2.2 - q.2.2) ^ 2) by ring, Real.sqrt_mul (sq_nonneg k), Real.sqrt_sq hk.le]

theorem alpha_inUnit (k : ℝ) (hk : 0 < k) (p q : P3) : alpha (inUnit k p) (inUnit k q) = alpha p q := by
  unfold alpha
  rw [horizontal_inUnit k hk]
  have e : ((inUnit k q).2.2 - (inUnit k p).2.2) / (k * horizontalDist p q) = (q.2.2 - p.2.2) / horizontalDist p q := by
    rw [show (inUnit k q).2.2 - (inUnit k p).2.2 = k * (q.2.2 - p.2.2) by simp only [inUnit]; ring, mul_div_mul_left _ _ hk.ne']
  rw [e]
  simp only [mul_eq_zero, hk.ne', false_or, inUnit, mul_lt_mul_iff_right₀ hk]

theorem height_inUnit (k : ℝ) (hk : 0 < k) (c l b t : ℝ) : heightInLayer (k * c) (k * l) (k * b) (k * t) = k * heightInLayer c l b t := by
  unfold heightInLayer
  simp only [← mul_max_of_nonneg _ _ hk.le, ← mul_min_of_nonneg _ _ hk.le, ← mul_sub]
  rw [mul_ite, mul_zero]
  congr 1
  rw [eq_iff_iff]
  constructor
  · intro h; by_contra h'; exact absurd h (not_lt.2 (mul_nonneg hk.le (not_lt.1 h')))
  · intro h; exact mul_neg_of_pos_of_neg hk h

theorem layers_inUnit (k lo hi : ℝ) (n : ℕ) :
    layers (k * lo) (k * hi) n = (layers lo hi n).map fun l => ⟨k * l.bottom, k * l.top⟩ := by
  unfold layers
  rw [List.map_map]
  refine List.map_congr_left fun i _ => ?_
  simp only [Function.comp_apply, border, Layer.mk.injEq]
  constructor <;> ring

theorem sum_map_scaled (k : ℝ) (l : List ℝ) : (l.map (k * ·)).sum = k * l.sum := by
  induction l with
  | nil => simp
  | cons x xs ih => simp only [List.map_cons, List.sum_cons, ih]; ring

/-- **C147, unit of length, one LED**: if the distances add up to the length of the ray (C40), all of them are multiplied with the
factor of the units. -/
theorem C147_ray_unit (k : ℝ) (hk : 0 < k) (cam led : P3) (lo hi : ℝ) (n : ℕ) (ds : List ℝ)
    (h : distPerLayer cam led (layers lo hi n) = .dists ds) (hs : ds.sum = euclid cam led) :
    distPerLayer (inUnit k cam) (inUnit k led) (layers (k * lo) (k * hi) n) = .dists (ds.map (k * ·)) := by
  have e1 : distInPlane (inUnit k cam) (inUnit k led) (layers (k * lo) (k * hi) n) = (distInPlane cam led (layers lo hi n)).map (k * ·) := by
    unfold distInPlane
    rw [layers_inUnit, List.map_map, List.map_map]
    refine List.map_congr_left fun l _ => ?_
    simp only [Function.comp_apply, horizontal_inUnit k hk]
    simp only [inUnit, mul_le_mul_iff_right₀ hk, mul_lt_mul_iff_right₀ hk, mul_ite, mul_zero]
  have e2 : ∀ a, distNonzeroAlpha a (inUnit k cam) (inUnit k led) (layers (k * lo) (k * hi) n) =
      (distNonzeroAlpha a cam led (layers lo hi n)).map (k * ·) := by
    intro a
    unfold distNonzeroAlpha
    rw [layers_inUnit, List.map_map, List.map_map]
    refine List.map_congr_left fun l _ => ?_
    simp only [Function.comp_apply, inUnit, height_inUnit k hk]
    rw [mul_div_assoc, abs_mul, abs_of_pos hk]
  have e3 : ∀ l : List ℝ, checked cam led l = .dists ds → checked (inUnit k cam) (inUnit k led) (l.map (k * ·)) = .dists (ds.map (k * ·)) := by
    intro l hl
    unfold checked at hl ⊢
    split at hl
    · cases hl
    · cases hl
      rw [sum_map_scaled, euclid_inUnit k hk, hs, sub_self, abs_zero, if_neg (by norm_num)]
  unfold distPerLayer at h ⊢
  rw [alpha_inUnit k hk]
  cases ha : alpha cam led with
  | none => rw [ha] at h; cases h
  | some a =>
    rw [ha] at h
    simp only at h ⊢
    split at h
    · next h0 => rw [if_pos h0, e1]; exact e3 _ h
    · next h0 => rw [if_neg h0, e2]; exact e3 _ h

theorem residual_unit {ι : Type} [Fintype ι] {n : ℕ} (k : ℝ) (hk : 0 < k) (B : ι → Fin n → ℝ) (b : ι → ℝ) (x : Fin n → ℝ) :
    residual (fun i l => k * B i l) b (fun l => x l / k) = residual B b x := by
  unfold residual
  refine Finset.sum_congr rfl fun i _ => ?_
  congr 2
  refine Finset.sum_congr rfl fun l _ => ?_
  field_simp

theorem nnls_unit {ι : Type} [Fintype ι] {n : ℕ} (k : ℝ) (hk : 0 < k) (B : ι → Fin n → ℝ) (b : ι → ℝ) (x : Fin n → ℝ)
    (h : IsNnls B b x) : IsNnls (fun i l => k * B i l) b (fun l => x l / k) := by
  refine ⟨⟨fun l => div_nonneg (h.nonneg l) hk.le, ?_⟩, ?_⟩
  · intro y hy
    have e := residual_unit k hk B b fun l => k * y l
    have : (fun l => k * y l / k) = y := by funext l; field_simp
    rw [this] at e
    rw [residual_unit k hk, e]
    exact h.minimal _ fun l => mul_nonneg hk.le (hy l)
  · intro hs
    have := h.start fun l => by
      have := hs l
      simp only [mul_assoc, ← Finset.mul_sum] at this
      by_contra hc
      exact absurd this (not_le.2 (mul_pos hk (not_le.1 hc)))
    subst this
    funext l
    simp

theorem augMatrix_unit {m n : ℕ} (k : ℝ) (hk : 0 < k) (A : Fin m → Fin n → ℝ) (lam : ℝ) :
    augMatrix (fun i l => k * A i l) (k ^ 2 * lam) = fun i l => k * augMatrix A lam i l := by
  funext i l
  cases i with
  | inl i => rfl
  | inr i =>
    simp only [augMatrix]
    rw [Real.sqrt_mul (sq_nonneg k), Real.sqrt_sq hk.le]
    ring

/-- **C147, unit of length, solver**: lengths multiplied with `k`, the weight of the smoothness with its square, give coefficients
divided by `k`, which is the same smoke (per metre, per centimetre). -/
theorem C147_solver_unit {m n : ℕ} (k : ℝ) (hk : 0 < k) (A : Fin m → Fin n → ℝ) (lam : ℝ) (rel : Fin m → ℝ) (σ : Fin n → ℝ) :
    LinearSolution (fun i l => k * A i l) (k ^ 2 * lam) rel (fun l => σ l / k) ↔ LinearSolution A lam rel σ := by
  unfold LinearSolution
  rw [augMatrix_unit k hk]
  constructor
  · intro h
    have := nnls_unit k⁻¹ (inv_pos.2 hk) _ _ _ h
    have e1 : (fun i l => k⁻¹ * (k * augMatrix A lam i l)) = augMatrix A lam := by
      funext i l; field_simp
    have e2 : (fun l => σ l / k / k⁻¹) = σ := by funext l; field_simp
    rwa [e1, e2] at this
  · exact nnls_unit k hk _ _ _

theorem linearImage_rows (n : ℕ) (M : List (List ℝ)) (lam : ℝ) (rel : List ℝ) (r : Except PyErr (Fin n → ℝ)) (m : ℕ) (hm : M.length = m) :
    LinearImage n (M.map some) lam rel r ↔ if rel.length = m then
      ∃ σ, r = .ok σ ∧ LinearSolution (fun (i : Fin m) (l : Fin n) => (M.getD i []).getD l 0) lam (fun (i : Fin m) => rel.getD i 0) σ
      else r = .error .valueError := by
  subst hm
  have e : (M.map some).mapM id = some M := by
    induction M with
    | nil => rfl
    | cons x xs ih => rw [List.map_cons, List.mapM_cons, ih]; rfl
  unfold LinearImage
  rw [e]
  have e2 : (fun (i : Fin M.length) (l : Fin n) => (M.getD i []).getD l 0) = distEntry M := by
    funext i l
    simp [distEntry]
  rw [e2]

theorem getD_scaled (k : ℝ) (l : List ℝ) (i : ℕ) : (l.map (k * ·)).getD i 0 = k * l.getD i 0 := by
  rw [List.getD_eq_getElem?_getD, List.getD_eq_getElem?_getD, List.getElem?_map]
  cases l[i]? <;> simp

theorem getD_scaled_rows (k : ℝ) (M : List (List ℝ)) (i j : ℕ) : ((M.map (List.map (k * ·))).getD i []).getD j 0 = k * (M.getD i []).getD j 0 := by
  rw [← getD_scaled]
  congr 1
  rw [List.getD_eq_getElem?_getD, List.getD_eq_getElem?_getD, List.getElem?_map]
  cases M[i]? <;> simp

theorem positions_mem (t : List P3) (ids : List ℕ) : ∀ leds, ledPositions t ids = .ok leds → ∀ p ∈ leds, ∃ x ∈ ids, t[x]? = some p := by
  have key : ∀ (ids : List ℕ) (leds : List P3), (ids.mapM fun i => t[i]?) = some leds → ∀ p ∈ leds, ∃ x ∈ ids, t[x]? = some p := by
    intro ids
    induction ids with
    | nil => intro leds h; cases h; simp
    | cons x xs ih =>
      intro leds h
      rw [List.mapM_cons] at h
      cases hx : t[x]? with
      | none => rw [hx] at h; cases h
      | some q =>
        rw [hx] at h
        cases hr : xs.mapM fun i => t[i]? with
        | none => rw [hr] at h; cases h
        | some qs =>
          rw [hr] at h
          cases h
          intro p hp
          rcases List.mem_cons.1 hp with rfl | hp
          · exact ⟨x, by simp, hx⟩
          · obtain ⟨y, hy, hyp⟩ := ih qs hr p hp
            exact ⟨y, List.mem_cons_of_mem _ hy, hyp⟩
  intro leds h
  unfold ledPositions at h
  split at h
  · cases h
  · next l hm => cases h; exact key ids _ hm

theorem ArrayAnalysis.inputOf_ok (a : ArrayAnalysis) (leds : List P3) (hp : ledPositions a.coordinates a.ids = .ok leds) (d : ImgData ℝ) :
    a.inputOf (.ok d) = (if a.parallel then poolRel d (refIntensities a.ref d) else serialRel d (refIntensities a.ref d)).map fun rels =>
      (distanceArray a.cam (Ledsa.layers a.lo a.hi a.layers) leds, rels) := by
  unfold ArrayAnalysis.inputOf
  rw [hp]
  simp only [bind, Except.bind]
  cases a.parallel with
  | true => cases h : poolRel d (refIntensities a.ref d) <;> simp [Except.map, h]
  | false => cases h : serialRel d (refIntensities a.ref d) <;> simp [Except.map, h]

/-- The same analysis in another unit of length. -/
noncomputable def ArrayAnalysis.inUnit (k : ℝ) (a : ArrayAnalysis) : ArrayAnalysis :=
  { a with cam := Ledsa.inUnit k a.cam, lo := k * a.lo, hi := k * a.hi, coordinates := a.coordinates.map (Ledsa.inUnit k),
           lam := k ^ 2 * a.lam }

theorem distanceArray_unit (k : ℝ) (hk : 0 < k) (cam : P3) (lo hi : ℝ) (n : ℕ) (hn : 1 ≤ n) (h : lo < hi)
    (hc : lo ≤ cam.2.2 ∧ cam.2.2 ≤ hi) (leds : List P3) (hl : ∀ p ∈ leds, lo ≤ p.2.2 ∧ p.2.2 ≤ hi ∧ p ≠ cam ∧ ¬ (cam.2.2 = hi ∧ p.2.2 = hi)) :
    ∃ M : List (List ℝ), distanceArray cam (layers lo hi n) leds = M.map some ∧
      distanceArray (inUnit k cam) (layers (k * lo) (k * hi) n) (leds.map (inUnit k)) = (M.map (List.map (k * ·))).map some := by
  unfold distanceArray distanceRows
  rw [← List.map_reverse]
  have hl' : ∀ p ∈ leds.reverse, lo ≤ p.2.2 ∧ p.2.2 ≤ hi ∧ p ≠ cam ∧ ¬ (cam.2.2 = hi ∧ p.2.2 = hi) := fun p hp => hl p (List.mem_reverse.1 hp)
  revert hl'
  generalize leds.reverse = ps
  intro hl'
  induction ps with
  | nil => exact ⟨[], rfl, rfl⟩
  | cons p ps ih =>
    obtain ⟨M, h1, h2⟩ := ih fun q hq => hl' q (List.mem_cons_of_mem _ hq)
    obtain ⟨g1, g2, g3, g4⟩ := hl' p (by simp)
    obtain ⟨ds, hd, _, hs⟩ := C40_sum_partial cam p lo hi n hn h (Ne.symm g3) hc ⟨g1, g2⟩ g4
    refine ⟨ds :: M, ?_, ?_⟩
    · rw [List.map_cons, h1, List.map_cons, hd]
    · rw [List.map_cons, List.map_cons, h2, C147_ray_unit k hk cam p lo hi n ds hd hs, List.map_cons, List.map_cons]

theorem linearImage_unit (k : ℝ) (hk : 0 < k) (n : ℕ) (M : List (List ℝ)) (lam : ℝ) (rel : List ℝ) (r : Except PyErr (Fin n → ℝ)) :
    LinearImage n ((M.map (List.map (k * ·))).map some) (k ^ 2 * lam) rel (r.map fun σ l => σ l / k) ↔ LinearImage n (M.map some) lam rel r := by
  rw [linearImage_rows n _ _ _ _ M.length (by simp), linearImage_rows n _ _ _ _ M.length rfl]
  simp only [getD_scaled_rows]
  split
  · cases r with
    | error e => simp [Except.map]
    | ok σ =>
      simp only [Except.map, Except.ok.injEq, exists_eq_left', C147_solver_unit k hk]
  · cases r <;> simp [Except.map]

theorem forall₂_unit {α β γ : Type} (R : α → β → Prop) (R' : α → γ → Prop) (g : β → γ) (h : ∀ x y, R' x (g y) ↔ R x y) :
    ∀ (l : List α) (ys : List β), List.Forall₂ R' l (ys.map g) ↔ List.Forall₂ R l ys := by
  intro l
  induction l with
  | nil => intro ys; cases ys <;> simp
  | cons x xs ih => intro ys; cases ys <;> simp [h, ih]

theorem mapM_id_map {α β : Type} (g : α → β) : ∀ rs : List (Except PyErr α),
    (rs.map (Except.map g)).mapM id = (rs.mapM id).map (List.map g) := by
  intro rs
  induction rs with
  | nil => rfl
  | cons x xs ih =>
    rw [List.map_cons, List.mapM_cons, List.mapM_cons, ih]
    cases x with
    | error e => rfl
    | ok y => cases xs.mapM id <;> rfl

/-- **C147, unit of length, analysis of an array**: with camera and LEDs in the domain, the analysis with all lengths in another unit
and the weight of the smoothness converted gives the same smoke, for every measured table. -/
theorem C147_unit (k : ℝ) (hk : 0 < k) (a : ArrayAnalysis) (hn : 1 ≤ a.layers) (h : a.lo < a.hi) (hc : a.lo ≤ a.cam.2.2 ∧ a.cam.2.2 ≤ a.hi)
    (hl : ∀ x ∈ a.ids, ∀ p, a.coordinates[x]? = some p → a.lo ≤ p.2.2 ∧ p.2.2 ≤ a.hi ∧ p ≠ a.cam ∧ ¬ (a.cam.2.2 = a.hi ∧ p.2.2 = a.hi))
    (data : Except PyErr (ImgData ℝ)) (r : Except PyErr (List (Fin a.layers → ℝ))) (hr : a.ResultOf (a.inputOf data) r) :
    (a.inUnit k).ResultOf ((a.inUnit k).inputOf data) (r.map (List.map fun σ l => σ l / k)) := by
  have hp' : ledPositions (a.inUnit k).coordinates (a.inUnit k).ids = (ledPositions a.coordinates a.ids).map (List.map (Ledsa.inUnit k)) :=
    ledPositions_map _ _ _
  cases hp : ledPositions a.coordinates a.ids with
  | error x =>
    rw [hp] at hp'
    unfold ArrayAnalysis.inputOf at hr ⊢
    rw [hp] at hr; rw [hp']; cases hr; rfl
  | ok leds =>
    rw [hp] at hp'
    have hleds := positions_mem a.coordinates a.ids leds hp
    cases data with
    | error x =>
      unfold ArrayAnalysis.inputOf at hr ⊢
      rw [hp] at hr; rw [hp']; cases hr; rfl
    | ok d =>
      obtain ⟨M, h1, h2⟩ := distanceArray_unit k hk a.cam a.lo a.hi a.layers hn h hc leds fun p hpm => by
        obtain ⟨x, hx, hxp⟩ := hleds p hpm
        exact hl x hx p hxp
      rw [a.inputOf_ok leds hp] at hr
      rw [(a.inUnit k).inputOf_ok (leds.map (Ledsa.inUnit k)) hp']
      rw [show (a.inUnit k).parallel = a.parallel from rfl, show (a.inUnit k).ref = a.ref from rfl]
      generalize (if a.parallel = true then poolRel d (refIntensities a.ref d) else serialRel d (refIntensities a.ref d)) = rr at hr ⊢
      cases rr with
      | error x => cases hr; rfl
      | ok rels =>
        obtain ⟨rs, hf, hre⟩ := hr
        refine ⟨rs.map (Except.map fun σ l => σ l / k), ?_, ?_⟩
        · have e : distanceArray (a.inUnit k).cam (layers (a.inUnit k).lo (a.inUnit k).hi (a.inUnit k).layers) (leds.map (Ledsa.inUnit k)) =
            (M.map (List.map (k * ·))).map some := h2
          rw [e]
          rw [h1] at hf
          exact (forall₂_unit _ _ _ (linearImage_unit k hk a.layers M a.lam) rels rs).2 hf
        · subst hre
          exact (mapM_id_map _ rs).symm

/-- The claim for the unit of length without converting the weight of the smoothness. -/
def UnitFree : Prop := ∀ (m n : ℕ) (k : ℝ), 0 < k → ∀ (A : Fin m → Fin n → ℝ) (lam : ℝ) (rel : Fin m → ℝ) (σ : Fin n → ℝ),
  LinearSolution A lam rel σ → LinearSolution (fun i l => k * A i l) lam rel (fun l => σ l / k)

theorem depth_two : opticalDepth (Real.exp (-2)) = 2 := by
  have h1 : (1 : ℝ) / 10 ^ 10 ≤ Real.exp (-2) := by
    have := Real.exp_one_lt_d9
    have e : Real.exp (-2) = 1 / (Real.exp 1 * Real.exp 1) := by
      rw [← Real.exp_add, one_div, ← Real.exp_neg]; norm_num
    rw [e]
    apply one_div_le_one_div_of_le (by positivity)
    nlinarith [Real.exp_pos 1]
  have h3 : Real.exp (-2) ≤ 1 := Real.exp_le_one_iff.2 (by norm_num)
  unfold opticalDepth clip
  rw [max_eq_left h1, min_eq_left h3, Real.log_exp]; norm_num

theorem oneRay_residual (k : ℝ) (y : Fin 1 → ℝ) :
    residual (augMatrix (fun (_ : Fin 1) (_ : Fin 1) => k * 1) 1) (augRhs 1 fun (_ : Fin 1) => Real.exp (-2)) y = (k * y 0 - 2) ^ 2 + y 0 ^ 2 := by
  have h2 := depth_two
  unfold residual
  rw [Fintype.sum_sum_type]
  have hr : regRows 1 = 1 := by decide
  have e1 : ∑ i : Fin 1, (∑ l, augMatrix (fun (_ : Fin 1) (_ : Fin 1) => k * 1) 1 (.inl i) l * y l -
      augRhs 1 (fun (_ : Fin 1) => Real.exp (-2)) (.inl i)) ^ 2 = (k * y 0 - 2) ^ 2 := by
    simp [augMatrix, augRhs, h2]
  have e2 : ∀ i : Fin (regRows 1), (∑ l, augMatrix (fun (_ : Fin 1) (_ : Fin 1) => k * 1) 1 (.inr i) l * y l -
      augRhs 1 (fun (_ : Fin 1) => Real.exp (-2)) (.inr i)) ^ 2 = y 0 ^ 2 := by
    intro i
    have : (i : ℕ) = 0 := by have := i.2; omega
    simp [augMatrix, augRhs, regEntry, this]
  rw [e1, Finset.sum_congr rfl fun i _ => e2 i]
  simp [hr]

/-- **C147 refuted for the unit of length if the weight stays**: one LED seen through one layer of thickness 1 with the weight 1 and
the optical depth 2. Counted in halves of the unit, the smoke comes out as 8/5 of the unit before instead of 1. -/
theorem C147_unit_false : ¬ UnitFree := by
  intro h
  have hs : LinearSolution (fun (_ : Fin 1) (_ : Fin 1) => (1 : ℝ) * 1) 1 (fun (_ : Fin 1) => Real.exp (-2)) (fun (_ : Fin 1) => 1) := by
    refine ⟨⟨fun _ => zero_le_one, ?_⟩, ?_⟩
    · intro y _
      rw [oneRay_residual, oneRay_residual]
      nlinarith [sq_nonneg (y 0 - 1)]
    · intro hs
      exfalso
      have h0 := hs 0
      have hr : regRows 1 = 1 := by decide
      rw [Fintype.sum_sum_type] at h0
      simp [augMatrix, augRhs, depth_two] at h0
      linarith
  have h2 := h 1 1 2 two_pos _ _ _ _ hs
  have e : (fun (_ : Fin 1) (_ : Fin 1) => (2 : ℝ) * ((1 : ℝ) * 1)) = fun _ _ => 2 * 1 := by funext i l; norm_num
  simp only [e] at h2
  have := h2.minimal (fun _ => 4 / 5) fun _ => by norm_num
  rw [oneRay_residual, oneRay_residual] at this
  norm_num at this

/-! ### Examples -/

/-- A turn by the angle of the triangle with sides 3, 4, 5, mirrored, with another origin and other heights. -/
noncomputable def turned : RoomFrame := ⟨3 / 5, 4 / 5, -1, 10, -2, 1 / 2⟩

theorem turned_rigid : turned.Rigid := ⟨by norm_num [turned], by norm_num [turned]⟩

example : turned.point (5, 0, 1) = (13, 2, 3 / 2) ∧ turned.point (0, 5, 0) = (14, -5, 1 / 2) := by
  constructor <;> norm_num [turned, RoomFrame.point]

/-- A ray of length 5 in one layer, in both coordinate systems. -/
example : distPerLayer (turned.point (0, 0, 0)) (turned.point (3, 4, 0)) (layers (1 / 2) (3 / 2) 1) = .dists [5] := by
  have h := C147_ray turned turned_rigid (0, 0, 0) (3, 4, 0) 0 1 1
  have e1 : (0 : ℝ) + turned.h = 1 / 2 := by norm_num [turned]
  have e2 : (1 : ℝ) + turned.h = 3 / 2 := by norm_num [turned]
  rw [e1, e2] at h
  rw [h]
  have hd : horizontalDist (0, 0, 0) (3, 4, 0) = 5 := by
    unfold horizontalDist
    rw [show ((0 : ℝ) - 3) ^ 2 + (0 - 4) ^ 2 = 5 ^ 2 by norm_num, Real.sqrt_sq (by norm_num)]
  have he : euclid (0, 0, 0) (3, 4, 0) = 5 := by
    unfold euclid
    rw [show ((0 : ℝ) - 3) ^ 2 + (0 - 4) ^ 2 + (0 - 0) ^ 2 = 5 ^ 2 by norm_num, Real.sqrt_sq (by norm_num)]
  have ha : alpha (0, 0, 0) (3, 4, 0) = some 0 := by unfold alpha; rw [hd, if_neg (by norm_num)]; simp
  have hl : distInPlane (0, 0, 0) (3, 4, 0) (layers 0 1 1) = [5] := by
    simp only [distInPlane, layers, border, List.range_succ, List.range_zero, List.nil_append, List.map_cons, List.map_nil, hd]
    norm_num
  unfold distPerLayer
  rw [ha]
  simp only [if_true, hl, checked, he]
  norm_num

/-- The position half way between the edge LEDs, in both coordinate systems. -/
example : arrayCoordinates [(3, 1), (2, 1), (1, 1)] (turned.point (5, 0, 1)) (turned.point (0, 5, 0)) =
    (arrayCoordinates [(3, 1), (2, 1), (1, 1)] (5, 0, 1) (0, 5, 0)).map (List.map turned.point) := turned.line _ _ _

end Ledsa
