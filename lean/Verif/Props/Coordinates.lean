import Verif.Model.Coordinates
import Mathlib.Data.List.Nodup
import Mathlib.Data.List.Sort
import Mathlib.Tactic.LinearCombination
import Mathlib.Tactic.Positivity
import Mathlib.Tactic.FieldSimp
/-
Room coordinates of the LEDs: C33-C37, and their join with the results: C49.
-/
namespace Ledsa

/-! ### C33, C34 -/

/-- Specification: the point at fraction `s` of the way from `p` to `q`. -/
def lerp2 (p q : P2) (s : ℝ) : P2 := (p.1 + s * (q.1 - p.1), p.2 + s * (q.2 - p.2))

/-- Specification: the same in the room. -/
def lerp3 (p q : P3) (s : ℝ) : P3 :=
  (p.1 + s * (q.1 - p.1), p.2.1 + s * (q.2.1 - p.2.1), p.2.2 + s * (q.2.2 - p.2.2))

/-- Specification: `s` is the fraction at which the orthogonal projection of `x` meets the line through `p` and `q`. -/
def IsFraction (p q x : P2) (s : ℝ) : Prop :=
  (x.1 - (lerp2 p q s).1) * (q.1 - p.1) + (x.2 - (lerp2 p q s).2) * (q.2 - p.2) = 0

theorem dir_ne_zero {top bot : P2} (h : pixDet top bot ≠ 0) :
    0 < dot2 (bot.1 - top.1, bot.2 - top.2) (bot.1 - top.1, bot.2 - top.2) := by
  unfold dot2
  simp only
  by_contra hc
  have h1 : bot.1 - top.1 = 0 := by nlinarith [mul_self_nonneg (bot.1 - top.1), mul_self_nonneg (bot.2 - top.2)]
  have h2 : bot.2 - top.2 = 0 := by nlinarith [mul_self_nonneg (bot.1 - top.1), mul_self_nonneg (bot.2 - top.2)]
  apply h
  unfold pixDet
  have e1 : bot.1 = top.1 := by linarith
  have e2 : bot.2 = top.2 := by linarith
  rw [e1, e2]
  ring

theorem orthProjection_eq (p dir o : P2) (h : 0 < dot2 dir dir) :
    orthProjection p dir o = (o.1 + dot2 (p.1 - o.1, p.2 - o.2) dir / dot2 dir dir * dir.1,
      o.2 + dot2 (p.1 - o.1, p.2 - o.2) dir / dot2 dir dir * dir.2) := by
  unfold orthProjection
  obtain ⟨n, hn⟩ : ∃ n, n = Real.sqrt (dot2 dir dir) := ⟨_, rfl⟩
  have hs : dot2 dir dir = n * n := by rw [hn]; exact (Real.mul_self_sqrt h.le).symm
  have hpos : 0 < n := by rw [hn]; exact Real.sqrt_pos.2 h
  rw [← hn, hs]
  unfold dot2
  simp only
  ext
  · simp only; field_simp; ring
  · simp only; field_simp; ring

theorem conv_lerp (top bot : P2) (T B : P3) (h : pixDet top bot ≠ 0) (s : ℝ) :
    applyConv (solveRows top bot T B) (lerp2 top bot s) = lerp3 T B s := by
  unfold applyConv solveRows lerp2 lerp3
  simp only
  have hd : pixDet top bot = top.1 * bot.2 - top.2 * bot.1 := rfl
  generalize pixDet top bot = d at h hd
  ext
  · simp only; field_simp; rw [hd]; ring
  · simp only; field_simp; rw [hd]; ring
  · simp only; field_simp; rw [hd]; ring

/-- **C33.** For linearly independent edge pixels every LED of the array gets the point of the line through the two given
points at the fraction of its orthogonal projection onto the pixel line; the last LED of the index file (the first edge
LED, `C20_edges`) gets exactly the first triple, the first LED of the file the second. -/
theorem C33_on_line (pix : List P2) (T B : P3) (top bot : P2) (ht : pix.getLast? = some top) (hb : pix.head? = some bot)
    (hd : top.1 * bot.2 ≠ top.2 * bot.1) :
    ∃ res, arrayCoordinates pix T B = .ok res ∧ res.length = pix.length ∧
      (∀ (k : Nat) x, pix[k]? = some x → ∃ s, IsFraction top bot x s ∧ res[k]? = some (lerp3 T B s)) ∧
      res.getLast? = some T ∧ res.head? = some B := by
  have hdet : pixDet top bot ≠ 0 := by unfold pixDet; exact sub_ne_zero.2 hd
  have hdir := dir_ne_zero hdet
  have key : ∀ x : P2, ∃ s, IsFraction top bot x s ∧
      applyConv (solveRows top bot T B) (orthProjection x (bot.1 - top.1, bot.2 - top.2) top) = lerp3 T B s ∧
      (x = top → s = 0) ∧ (x = bot → s = 1) := by
    intro x
    refine ⟨dot2 (x.1 - top.1, x.2 - top.2) (bot.1 - top.1, bot.2 - top.2) /
      dot2 (bot.1 - top.1, bot.2 - top.2) (bot.1 - top.1, bot.2 - top.2), ?_, ?_, ?_, ?_⟩
    · unfold IsFraction lerp2
      simp only
      have hd : dot2 (bot.1 - top.1, bot.2 - top.2) (bot.1 - top.1, bot.2 - top.2) =
        (bot.1 - top.1) * (bot.1 - top.1) + (bot.2 - top.2) * (bot.2 - top.2) := rfl
      generalize dot2 (bot.1 - top.1, bot.2 - top.2) (bot.1 - top.1, bot.2 - top.2) = d at hdir hd
      unfold dot2
      simp only
      field_simp
      rw [hd]
      ring
    · rw [orthProjection_eq x _ _ hdir]
      exact conv_lerp top bot T B hdet _
    · rintro rfl
      unfold dot2
      simp
    · rintro rfl
      exact div_self hdir.ne'
  refine ⟨pix.map fun p => applyConv (solveRows top bot T B) (orthProjection p (bot.1 - top.1, bot.2 - top.2) top),
    ?_, by simp, ?_, ?_, ?_⟩
  · unfold arrayCoordinates conversionMatrix
    rw [ht, hb]
    simp only
    rw [if_neg hdet]
  · intro k x hx
    obtain ⟨s, h1, h2, _⟩ := key x
    refine ⟨s, h1, ?_⟩
    rw [List.getElem?_map, hx, Option.map_some, h2]
  · rw [List.getLast?_map, ht]
    obtain ⟨s, _, h2, h3, _⟩ := key top
    rw [Option.map_some, h2, h3 rfl]
    simp [lerp3]
  · rw [List.head?_map, hb]
    obtain ⟨s, _, h2, _, h3⟩ := key bot
    rw [Option.map_some, h2, h3 rfl]
    simp [lerp3]

/-- The fraction of an orthogonal projection is unique. -/
theorem C33_fraction_unique (p q x : P2) (h : p ≠ q) (s t : ℝ) (hs : IsFraction p q x s) (ht : IsFraction p q x t) :
    s = t := by
  unfold IsFraction lerp2 at hs ht
  simp only at hs ht
  have h0 : 0 < (q.1 - p.1) ^ 2 + (q.2 - p.2) ^ 2 := by
    by_contra hc
    apply h
    have h1 : q.1 - p.1 = 0 := by nlinarith [sq_nonneg (q.1 - p.1), sq_nonneg (q.2 - p.2)]
    have h2 : q.2 - p.2 = 0 := by nlinarith [sq_nonneg (q.1 - p.1), sq_nonneg (q.2 - p.2)]
    ext <;> linarith
  have : (s - t) * ((q.1 - p.1) ^ 2 + (q.2 - p.2) ^ 2) = 0 := by linear_combination ht - hs
  rcases mul_eq_zero.1 this with h | h
  · linarith
  · linarith

/-- Three LEDs: the middle one is half way. -/
example : arrayCoordinates [(10, 5), (5, 6), (0, 5)] (1, 2, 3) (1, 2, 1) = .ok [(1, 2, 1), (1, 2, 2), (1, 2, 3)] := by
  obtain ⟨res, h1, h2, h3, h4, h5⟩ := C33_on_line [(10, 5), (5, 6), (0, 5)] (1, 2, 3) (1, 2, 1) (0, 5) (10, 5) rfl rfl
    (by norm_num)
  obtain ⟨s, hs, hr⟩ := h3 1 (5, 6) rfl
  have : s = 1 / 2 := C33_fraction_unique (0, 5) (10, 5) (5, 6) (by simp) s (1 / 2) hs
    (by unfold IsFraction lerp2; norm_num)
  subst this
  match res, h2 with
  | [x, y, z], _ =>
    simp only [List.getLast?_cons_cons, List.getLast?_singleton, Option.some.injEq] at h4
    simp only [List.head?_cons, Option.some.injEq] at h5
    simp only [List.getElem?_cons_succ, List.getElem?_cons_zero, Option.some.injEq] at hr
    rw [h1, h4, h5, hr]
    unfold lerp3
    norm_num

/-- **C34, exact condition.** For a non-empty index file the calculation succeeds iff the two edge pixels are linearly
independent as vectors, i.e. the line through them does not contain the pixel origin. -/
theorem C34_succeeds_iff (pix : List P2) (T B : P3) (top bot : P2) (ht : pix.getLast? = some top)
    (hb : pix.head? = some bot) :
    (∃ res, arrayCoordinates pix T B = .ok res) ↔ ¬ ∃ s t : ℝ, (s ≠ 0 ∨ t ≠ 0) ∧
      s * top.1 + t * bot.1 = 0 ∧ s * top.2 + t * bot.2 = 0 := by
  have hiff : pixDet top bot = 0 ↔ ∃ s t : ℝ, (s ≠ 0 ∨ t ≠ 0) ∧
      s * top.1 + t * bot.1 = 0 ∧ s * top.2 + t * bot.2 = 0 := by
    unfold pixDet
    constructor
    · intro h
      by_cases h0 : top.1 = 0 ∧ top.2 = 0
      · exact ⟨1, 0, Or.inl one_ne_zero, by rw [h0.1]; ring, by rw [h0.2]; ring⟩
      · by_cases h1 : top.1 = 0
        · have h2 : top.2 ≠ 0 := fun h2 => h0 ⟨h1, h2⟩
          refine ⟨-bot.2, top.2, Or.inr h2, ?_, by ring⟩
          rw [h1] at h ⊢
          have : top.2 * bot.1 = 0 := by linarith
          linarith
        · refine ⟨-bot.1, top.1, Or.inr h1, by ring, by linarith⟩
    · rintro ⟨s, t, hst, h1, h2⟩
      have e1 : s * (top.1 * bot.2 - top.2 * bot.1) = 0 := by linear_combination bot.2 * h1 - bot.1 * h2
      have e2 : t * (top.1 * bot.2 - top.2 * bot.1) = 0 := by linear_combination top.1 * h2 - top.2 * h1
      rcases hst with h | h
      · exact (mul_eq_zero.1 e1).resolve_left h
      · exact (mul_eq_zero.1 e2).resolve_left h
  rw [← hiff]
  constructor
  · rintro ⟨res, h⟩ hd
    unfold arrayCoordinates conversionMatrix at h
    rw [ht, hb] at h
    simp only [if_pos hd] at h
    cases h
  · intro hd
    unfold arrayCoordinates conversionMatrix
    rw [ht, hb]
    simp only [if_neg hd]
    exact ⟨_, rfl⟩

/-- **C34 refuted**: an array along the first pixel row of the image. -/
theorem C34_false : ¬ ∀ (pix : List P2) (T B : P3) (top bot : P2), pix.getLast? = some top → pix.head? = some bot →
    top ≠ bot → ∃ res, arrayCoordinates pix T B = .ok res := by
  intro h
  have := h [(0, 300), (0, 200), (0, 100)] (0, 0, 0) (1, 1, 1) (0, 100) (0, 300) rfl rfl (by simp)
  rw [C34_succeeds_iff [(0, 300), (0, 200), (0, 100)] (0, 0, 0) (1, 1, 1) (0, 100) (0, 300) rfl rfl] at this
  exact this ⟨3, -1, Or.inl (by norm_num), by norm_num, by norm_num⟩

/-- **C34**: also every array of a single LED fails. -/
theorem C34_single_led_fails (p : P2) (T B : P3) : arrayCoordinates [p] T B = .error .linAlgError := by
  unfold arrayCoordinates conversionMatrix
  have : pixDet p p = 0 := by unfold pixDet; ring
  simp [this]

/-! ### C35 -/

/-- Specification: the plane. -/
def Plane.Contains (pl : Plane) (p : P3) : Prop := pl.a * p.1 + pl.b * p.2.1 + pl.d = 0

/-- Specification: squared distance. -/
def distSq (p q : P3) : ℝ := (p.1 - q.1) ^ 2 + (p.2.1 - q.2.1) ^ 2 + (p.2.2 - q.2.2) ^ 2

/-- **C35.** The projected point lies on the plane, keeps its height, and is strictly closer than every other point of the
plane. -/
theorem C35_projection (pl : Plane) (hb : pl.b ≠ 0) (p : P3) :
    pl.Contains (projectToPlane pl p) ∧ (projectToPlane pl p).2.2 = p.2.2 ∧
      ∀ q, pl.Contains q → q ≠ projectToPlane pl p → distSq p (projectToPlane pl p) < distSq p q := by
  have hn : 0 < pl.a ^ 2 + pl.b ^ 2 := by positivity
  have hc : pl.Contains (projectToPlane pl p) := by
    unfold Plane.Contains projectToPlane
    simp only
    field_simp
    ring
  have hz : (projectToPlane pl p).2.2 = p.2.2 := by simp [projectToPlane]
  refine ⟨hc, hz, ?_⟩
  intro q hq hne
  -- Pythagoras
  have hpy : distSq p q = distSq p (projectToPlane pl p) + distSq q (projectToPlane pl p) := by
    obtain ⟨t, ht⟩ : ∃ t, t = -(pl.a * p.1 + pl.b * p.2.1 + pl.d) / (pl.a ^ 2 + pl.b ^ 2) := ⟨_, rfl⟩
    have e1 : (projectToPlane pl p).1 = p.1 + pl.a * t := by unfold projectToPlane; simp only; rw [ht]
    have e2 : (projectToPlane pl p).2.1 = p.2.1 + pl.b * t := by unfold projectToPlane; simp only; rw [ht]
    unfold Plane.Contains at hc hq
    unfold distSq
    rw [hz]
    rw [e1, e2] at hc ⊢
    linear_combination (2 * t) * (hq - hc)
  have hpos : 0 < distSq q (projectToPlane pl p) := by
    by_contra hcon
    apply hne
    unfold distSq at hcon
    have s1 := sq_nonneg (q.1 - (projectToPlane pl p).1)
    have s2 := sq_nonneg (q.2.1 - (projectToPlane pl p).2.1)
    have s3 := sq_nonneg (q.2.2 - (projectToPlane pl p).2.2)
    have z1 : (q.1 - (projectToPlane pl p).1) ^ 2 = 0 := by linarith
    have z2 : (q.2.1 - (projectToPlane pl p).2.1) ^ 2 = 0 := by linarith
    have z3 : (q.2.2 - (projectToPlane pl p).2.2) ^ 2 = 0 := by linarith
    rw [sq_eq_zero_iff] at z1 z2 z3
    ext
    · linarith
    · linarith
    · linarith
  linarith

/-- **C35.** Projecting twice changes nothing. -/
theorem C35_idempotent (pl : Plane) (hb : pl.b ≠ 0) (p : P3) :
    projectToPlane pl (projectToPlane pl p) = projectToPlane pl p := by
  have hc := (C35_projection pl hb p).1
  generalize projectToPlane pl p = q at hc
  unfold Plane.Contains at hc
  unfold projectToPlane
  simp only
  rw [hc]
  simp

example : projectToPlane ⟨1, 1, -2⟩ (2, 2, 7) = (1, 1, 7) := by
  unfold projectToPlane; norm_num

/-! ### C36 -/

/-- Specification: distance along the wall (without the height). -/
noncomputable def wallDist (p q : P3) : ℝ := Real.sqrt ((p.1 - q.1) ^ 2 + (p.2.1 - q.2.1) ^ 2)

/-- Width of a point of the plane in terms of its x coordinate. -/
theorem rawWidth_on_plane (pl : Plane) (hb : pl.b ≠ 0) (p : P3) (hp : pl.Contains p) :
    rawWidth pl p = |p.1| * ((pl.a ^ 2 + pl.b ^ 2) / (pl.b * |pl.b|)) := by
  have hy : p.2.1 + pl.d / pl.b = -(pl.a / pl.b) * p.1 := by
    unfold Plane.Contains at hp
    field_simp
    linarith
  have hn : 0 < pl.a ^ 2 + pl.b ^ 2 := by positivity
  have hsq : Real.sqrt (p.1 ^ 2 + (-(pl.a / pl.b) * p.1) ^ 2) = |p.1| * (Real.sqrt (pl.a ^ 2 + pl.b ^ 2) / |pl.b|) := by
    rw [show p.1 ^ 2 + (-(pl.a / pl.b) * p.1) ^ 2 = p.1 ^ 2 * ((pl.a ^ 2 + pl.b ^ 2) / pl.b ^ 2) by field_simp; ring,
      Real.sqrt_mul (sq_nonneg _), Real.sqrt_sq_eq_abs, Real.sqrt_div hn.le, Real.sqrt_sq_eq_abs]
  unfold rawWidth
  simp only
  rw [hy, hsq]
  have hs : Real.sqrt (pl.a ^ 2 + pl.b ^ 2) * Real.sqrt (pl.a ^ 2 + pl.b ^ 2) = pl.a ^ 2 + pl.b ^ 2 :=
    Real.mul_self_sqrt hn.le
  have hpos : 0 < Real.sqrt (pl.a ^ 2 + pl.b ^ 2) := Real.sqrt_pos.2 hn
  have habs : |pl.b| ≠ 0 := abs_ne_zero.2 hb
  generalize Real.sqrt (pl.a ^ 2 + pl.b ^ 2) = n at hs hpos
  rw [← hs]
  field_simp
  rw [zero_mul, zero_add, mul_div_assoc, div_self hb, mul_one]

theorem wallDist_on_plane (pl : Plane) (hb : pl.b ≠ 0) (p q : P3) (hp : pl.Contains p) (hq : pl.Contains q) :
    wallDist p q = |p.1 - q.1| * (Real.sqrt (pl.a ^ 2 + pl.b ^ 2) / |pl.b|) := by
  have hy : p.2.1 - q.2.1 = -(pl.a / pl.b) * (p.1 - q.1) := by
    unfold Plane.Contains at hp hq
    field_simp
    linarith
  have hn : 0 < pl.a ^ 2 + pl.b ^ 2 := by positivity
  unfold wallDist
  rw [hy, show (p.1 - q.1) ^ 2 + (-(pl.a / pl.b) * (p.1 - q.1)) ^ 2 =
    (p.1 - q.1) ^ 2 * ((pl.a ^ 2 + pl.b ^ 2) / pl.b ^ 2) by field_simp; ring,
      Real.sqrt_mul (sq_nonneg _), Real.sqrt_sq_eq_abs, Real.sqrt_div hn.le, Real.sqrt_sq_eq_abs]

theorem foldl_min_real_spec (vs : List ℝ) : ∀ v, (vs.foldl min v ∈ v :: vs) ∧ ∀ x ∈ v :: vs, vs.foldl min v ≤ x := by
  induction vs with
  | nil => intro v; simp
  | cons w vs ih =>
    intro v
    obtain ⟨h1, h2⟩ := ih (min v w)
    rw [List.foldl_cons]
    constructor
    · rcases List.mem_cons.1 h1 with h | h
      · rcases min_choice v w with hm | hm
        · rw [h, hm]; simp
        · rw [h, hm]; simp
      · exact List.mem_cons_of_mem _ (List.mem_cons_of_mem _ h)
    · have hm : vs.foldl min (min v w) ≤ min v w := h2 _ (by simp)
      intro x hx
      rcases List.mem_cons.1 hx with rfl | hx
      · exact hm.trans (min_le_left _ _)
      · rcases List.mem_cons.1 hx with rfl | hx
        · exact hm.trans (min_le_right _ _)
        · exact h2 x (List.mem_cons_of_mem _ hx)

/-- **C36**, the part that holds for every plane and every non-empty set of points: widths are non-negative, the smallest
is 0, heights are the z coordinates. -/
theorem C36_widths_from_zero (pl : Plane) (ps : List P3) (hps : ps ≠ []) :
    ∃ res, planeCoordinates pl ps = .ok res ∧ res.map (·.2) = ps.map (fun p => p.2.2) ∧
      (∀ w ∈ res.map (·.1), 0 ≤ w) ∧ 0 ∈ res.map (·.1) := by
  cases ps with
  | nil => exact absurd rfl hps
  | cons p ps =>
    unfold planeCoordinates
    rw [List.map_cons, listMin]
    simp only
    obtain ⟨h1, h2⟩ := foldl_min_real_spec (ps.map (rawWidth pl)) (rawWidth pl p)
    rw [← List.map_cons] at h1 h2
    refine ⟨_, rfl, ?_, ?_, ?_⟩
    · rw [List.map_map]; rfl
    · intro w hw
      rw [List.map_map, List.mem_map] at hw
      obtain ⟨q, hq, rfl⟩ := hw
      have := h2 (rawWidth pl q) (List.mem_map.2 ⟨q, hq, rfl⟩)
      simp only [Function.comp]
      linarith
    · obtain ⟨q, hq, he⟩ := List.mem_map.1 h1
      rw [List.map_map, List.mem_map]
      exact ⟨q, hq, by simp only [Function.comp]; rw [he]; ring⟩

/-- **C36, exact law.** The difference of the widths of two LEDs on the plane is not their distance along the wall but
`(|x₁| - |x₂|) (a² + b²) / (b |b|)`. -/
theorem C36_width_difference (pl : Plane) (hb : pl.b ≠ 0) (ps : List P3) (hps : ∀ p ∈ ps, pl.Contains p)
    (res : List (ℝ × ℝ)) (h : planeCoordinates pl ps = .ok res) (i j : Nat) (p q : P3) (wp wq : ℝ × ℝ)
    (hp : ps[i]? = some p) (hq : ps[j]? = some q) (hwp : res[i]? = some wp) (hwq : res[j]? = some wq) :
    wp.1 - wq.1 = (|p.1| - |q.1|) * ((pl.a ^ 2 + pl.b ^ 2) / (pl.b * |pl.b|)) := by
  unfold planeCoordinates at h
  split at h
  · cases h
  · rename_i m hm
    obtain rfl := Except.ok.inj h
    rw [List.getElem?_map, hp, Option.map_some, Option.some.injEq] at hwp
    rw [List.getElem?_map, hq, Option.map_some, Option.some.injEq] at hwq
    subst hwp hwq
    simp only
    rw [rawWidth_on_plane pl hb p (hps p (List.mem_of_getElem? hp)),
      rawWidth_on_plane pl hb q (hps q (List.mem_of_getElem? hq))]
    ring

/-- **C36, partial**: for walls parallel to the x axis and LEDs on one side of `x = 0`, the width difference is the
distance along the wall. Missing (and false, see below): other walls, LEDs on both sides. -/
theorem C36_isometry_partial (pl : Plane) (hb : pl.b ≠ 0) (ha : pl.a = 0) (ps : List P3)
    (hps : ∀ p ∈ ps, pl.Contains p) (hside : (∀ p ∈ ps, 0 ≤ p.1) ∨ ∀ p ∈ ps, p.1 ≤ 0)
    (res : List (ℝ × ℝ)) (h : planeCoordinates pl ps = .ok res) (i j : Nat) (p q : P3) (wp wq : ℝ × ℝ)
    (hp : ps[i]? = some p) (hq : ps[j]? = some q) (hwp : res[i]? = some wp) (hwq : res[j]? = some wq) :
    |wp.1 - wq.1| = wallDist p q := by
  have hpm := List.mem_of_getElem? hp
  have hqm := List.mem_of_getElem? hq
  rw [C36_width_difference pl hb ps hps res h i j p q wp wq hp hq hwp hwq,
    wallDist_on_plane pl hb p q (hps p hpm) (hps q hqm), ha]
  have habs : |pl.b| ≠ 0 := abs_ne_zero.2 hb
  have e1 : |(0 ^ 2 + pl.b ^ 2) / (pl.b * |pl.b|)| = 1 := by
    rw [abs_div, abs_mul, abs_abs, zero_pow two_ne_zero, zero_add, abs_pow]
    field_simp
  have e2 : Real.sqrt (0 ^ 2 + pl.b ^ 2) / |pl.b| = 1 := by
    rw [zero_pow two_ne_zero, zero_add, Real.sqrt_sq_eq_abs, div_self habs]
  rw [abs_mul, e1, e2, mul_one, mul_one]
  rcases hside with hs | hs
  · rw [abs_of_nonneg (hs p hpm), abs_of_nonneg (hs q hqm)]
  · rw [abs_of_nonpos (hs p hpm), abs_of_nonpos (hs q hqm), abs_sub_comm p.1 q.1]
    congr 1
    ring

/-- **C36 refuted, oblique walls**: on one side of `x = 0` all widths are stretched by `√(a²+b²)/|b|`, the inverse cosine
of the angle between wall and x axis. -/
theorem C36_oblique_stretched (pl : Plane) (hb : pl.b ≠ 0) (ps : List P3)
    (hps : ∀ p ∈ ps, pl.Contains p) (hside : ∀ p ∈ ps, 0 ≤ p.1)
    (res : List (ℝ × ℝ)) (h : planeCoordinates pl ps = .ok res) (i j : Nat) (p q : P3) (wp wq : ℝ × ℝ)
    (hp : ps[i]? = some p) (hq : ps[j]? = some q) (hwp : res[i]? = some wp) (hwq : res[j]? = some wq) :
    |wp.1 - wq.1| = Real.sqrt (pl.a ^ 2 + pl.b ^ 2) / |pl.b| * wallDist p q := by
  have hpm := List.mem_of_getElem? hp
  have hqm := List.mem_of_getElem? hq
  have hn : 0 < pl.a ^ 2 + pl.b ^ 2 := by positivity
  rw [C36_width_difference pl hb ps hps res h i j p q wp wq hp hq hwp hwq,
    wallDist_on_plane pl hb p q (hps p hpm) (hps q hqm), abs_mul, abs_of_nonneg (hside p hpm),
    abs_of_nonneg (hside q hqm), abs_div, abs_mul, abs_abs, abs_of_pos hn]
  have hs : Real.sqrt (pl.a ^ 2 + pl.b ^ 2) * Real.sqrt (pl.a ^ 2 + pl.b ^ 2) = pl.a ^ 2 + pl.b ^ 2 :=
    Real.mul_self_sqrt hn.le
  have habs : |pl.b| ≠ 0 := abs_ne_zero.2 hb
  generalize Real.sqrt (pl.a ^ 2 + pl.b ^ 2) = n at hs
  rw [← hs]
  field_simp

/-- The literal claim C36. -/
def WidthIsometry : Prop :=
  ∀ (pl : Plane) (ps : List P3), pl.b ≠ 0 → (∀ p ∈ ps, pl.Contains p) → ∀ res, planeCoordinates pl ps = .ok res →
    ∀ (i j : Nat) (p q : P3) (wp wq : ℝ × ℝ), ps[i]? = some p → ps[j]? = some q → res[i]? = some wp →
      res[j]? = some wq → |wp.1 - wq.1| = wallDist p q

/-- **C36 refuted, both sides**: two LEDs at `x = -1` and `x = 1` on a wall parallel to the x axis get the same width. -/
theorem C36_false : ¬ WidthIsometry := by
  intro h
  obtain ⟨res, hr, _⟩ := C36_widths_from_zero ⟨0, 1, 0⟩ [(-1, 0, 2), (1, 0, 2)] (by simp)
  have hlen : res.length = 2 := by
    have hr' := hr
    unfold planeCoordinates at hr'
    split at hr'
    · cases hr'
    · obtain rfl := Except.ok.inj hr'; simp
  have hps : ∀ p ∈ [((-1 : ℝ), (0 : ℝ), (2 : ℝ)), (1, 0, 2)], Plane.Contains ⟨0, 1, 0⟩ p := by
    intro p hp
    simp only [List.mem_cons, List.not_mem_nil, or_false] at hp
    rcases hp with rfl | rfl <;> simp [Plane.Contains]
  match res, hlen with
  | [w1, w2], _ =>
    have h1 := h ⟨0, 1, 0⟩ _ (by norm_num) hps _ hr 0 1 _ _ w1 w2 rfl rfl rfl rfl
    have h2 := C36_width_difference ⟨0, 1, 0⟩ (by norm_num) _ hps _ hr 0 1 _ _ w1 w2 rfl rfl rfl rfl
    rw [h2] at h1
    unfold wallDist at h1
    norm_num at h1
    have : (0 : ℝ) < Real.sqrt 4 := Real.sqrt_pos.2 (by norm_num)
    linarith

/-! ### C37 -/

/-- **C37, partial**: for every number of LEDs from four on, the result has one row per LED in order, the height of each is
its own z coordinate, and its width is the width of its own projection. Missing (and false): fewer than four. -/
theorem C37_own_coordinates_partial (fit : List P3 → Plane) (rows : List P3) (hn : 4 ≤ rows.length) :
    ∃ res, coordinates2d fit rows = .ok res ∧ res.length = rows.length ∧ ∃ m, ∀ (i : Nat) (p : P3),
      rows[i]? = some p → res[i]? = some (rawWidth (fit rows) (projectToPlane (fit rows) p) - m, p.2.2) := by
  have hc : columnsAsPoints rows = rows := by
    unfold columnsAsPoints
    split
    · simp at hn
    · rfl
  unfold coordinates2d
  simp only [hc]
  rw [if_neg (by omega)]
  unfold planeCoordinates
  cases hmin : listMin ((rows.map (projectToPlane (fit rows))).map (rawWidth (fit rows))) with
  | error e =>
    exfalso
    cases rows with
    | nil => simp at hn
    | cons r rows => simp [listMin] at hmin
  | ok m =>
    refine ⟨_, rfl, by simp, m, ?_⟩
    intro i p hp
    rw [List.getElem?_map, List.getElem?_map, hp]
    simp [projectToPlane]

/-- **C37 refuted, three LEDs**: whatever plane is fitted, the three "heights" are the x, y and z coordinate of the third
LED. -/
theorem C37_three_leds_wrong (fit : List P3 → Plane) (r s t : P3) :
    ∃ res, coordinates2d fit [r, s, t] = .ok res ∧ res.map (·.2) = [t.1, t.2.1, t.2.2] := by
  have hz : ∀ pl (p : P3), (projectToPlane pl p).2.2 = p.2.2 := fun pl p => by simp [projectToPlane]
  obtain ⟨pl, hpl⟩ : ∃ pl, pl = fit (columnsAsPoints [r, s, t]) := ⟨_, rfl⟩
  have hlen : ¬ (columnsAsPoints [r, s, t]).length < 3 := by simp [columnsAsPoints]
  unfold coordinates2d
  simp only
  rw [if_neg hlen, ← hpl]
  obtain ⟨res, h1, h2, _⟩ := C36_widths_from_zero pl ((columnsAsPoints [r, s, t]).map (projectToPlane pl))
    (by simp [columnsAsPoints])
  refine ⟨res, h1, ?_⟩
  rw [h2, List.map_map]
  simp only [columnsAsPoints, List.map_cons, List.map_nil, Function.comp, hz]

/-- **C37 refuted, one or two LEDs**: the plane fit fails. -/
theorem C37_few_leds_fail (fit : List P3 → Plane) (rows : List P3) (hn : rows.length < 3) :
    coordinates2d fit rows = .error .typeError := by
  unfold coordinates2d
  match rows, hn with
  | [], _ => rfl
  | [_], _ => rfl
  | [_, _], _ => rfl

/-- **C37 refuted.** -/
theorem C37_false : ¬ ∀ (fit : List P3 → Plane) (rows : List P3), ∃ res, coordinates2d fit rows = .ok res ∧
    res.map (·.2) = rows.map (fun p => p.2.2) := by
  intro h
  obtain ⟨res, hr, hh⟩ := h (fun _ => ⟨0, 1, 0⟩) [(1, 0, 5), (2, 0, 6), (3, 0, 7)]
  obtain ⟨res', hr', hh'⟩ := C37_three_leds_wrong (fun _ => ⟨0, 1, 0⟩) (1, 0, 5) (2, 0, 6) (3, 0, 7)
  rw [hr] at hr'
  obtain rfl := Except.ok.inj hr'
  rw [hh] at hh'
  simp at hh'

/-! ### C49 -/

section
variable {V C : Type}

theorem insertRow_mem (r x : Nat × V) (l : List (Nat × V)) : x ∈ insertRow r l ↔ x = r ∨ x ∈ l := by
  induction l with
  | nil => simp [insertRow]
  | cons s l ih =>
    unfold insertRow
    split
    · simp
    · simp only [List.mem_cons, ih]; tauto

theorem sortRows_mem (l : List (Nat × V)) (x : Nat × V) : x ∈ sortRows l ↔ x ∈ l := by
  induction l with
  | nil => simp [sortRows]
  | cons r l ih => simp [sortRows, insertRow_mem, ih]

theorem insertRow_length (r : Nat × V) (l : List (Nat × V)) : (insertRow r l).length = l.length + 1 := by
  induction l with
  | nil => rfl
  | cons s l ih => unfold insertRow; split <;> simp [ih]

theorem sortRows_length (l : List (Nat × V)) : (sortRows l).length = l.length := by
  induction l with
  | nil => rfl
  | cons r l ih => simp [sortRows, insertRow_length, ih]

theorem insertRow_sorted (r : Nat × V) (l : List (Nat × V)) (h : l.Pairwise (fun x y => x.1 < y.1))
    (hr : ∀ x ∈ l, x.1 ≠ r.1) : (insertRow r l).Pairwise (fun x y => x.1 < y.1) := by
  induction l with
  | nil => simp [insertRow]
  | cons s l ih =>
    rw [List.pairwise_cons] at h
    have hs := hr s (by simp)
    unfold insertRow
    split
    · rw [List.pairwise_cons, List.pairwise_cons]
      refine ⟨?_, h.1, h.2⟩
      intro x hx
      rcases List.mem_cons.1 hx with rfl | hx
      · omega
      · have := h.1 x hx; omega
    · rw [List.pairwise_cons]
      refine ⟨?_, ih h.2 (fun x hx => hr x (List.mem_cons_of_mem _ hx))⟩
      intro x hx
      rw [insertRow_mem] at hx
      rcases hx with rfl | hx
      · omega
      · exact h.1 x hx

theorem sortRows_sorted (l : List (Nat × V)) (h : (l.map (·.1)).Nodup) :
    (sortRows l).Pairwise (fun x y => x.1 < y.1) := by
  induction l with
  | nil => simp [sortRows]
  | cons r l ih =>
    rw [List.map_cons, List.nodup_cons] at h
    apply insertRow_sorted _ _ (ih h.2)
    intro x hx e
    rw [sortRows_mem] at hx
    exact h.1 (List.mem_map.2 ⟨x, hx, e⟩)

/-- Two strictly ascending lists of naturals with the same members are equal. -/
theorem ascending_unique {l l' : List Nat} (h : l.Pairwise (· < ·)) (h' : l'.Pairwise (· < ·))
    (hm : ∀ x, x ∈ l ↔ x ∈ l') : l = l' := by
  apply List.Perm.eq_of_pairwise (le := (· < ·)) _ h h'
  · exact (List.perm_ext_iff_of_nodup (h.imp (fun h => Nat.ne_of_lt h)) (h'.imp (fun h => Nat.ne_of_lt h))).2 hm
  · intro a b _ _ h1 h2; omega

/-- **C49.** If the ids of the results are distinct and all occur in a coordinate table with ascending ids (as written by
steps 1 and 2), loading succeeds, and the rows are exactly the results in ascending order of id, each with the
coordinates of its own id. -/
theorem C49_right_led (params : List (Nat × V)) (coord : List (Nat × C)) (hp : (params.map (·.1)).Nodup)
    (hc : (coord.map (·.1)).Pairwise (· < ·)) (hsub : ∀ i ∈ params.map (·.1), i ∈ coord.map (·.1)) :
    ∃ rows, loadWithCoordinates params coord = .ok rows ∧ (rows.map (·.1)).Pairwise (· < ·) ∧
      (∀ i v, (∃ w, (i, v, w) ∈ rows) ↔ (i, v) ∈ params) ∧ ∀ i v w, (i, v, w) ∈ rows → (i, w) ∈ coord := by
  have hs := sortRows_sorted params hp
  have hs' : ((sortRows params).map (·.1)).Pairwise (· < ·) := by rw [List.pairwise_map]; exact hs
  obtain ⟨sel, hsel⟩ : ∃ sel, sel = if (sortRows params).length = coord.length then coord else
      coord.filter (fun c => c.1 ∈ (sortRows params).map (·.1)) := ⟨_, rfl⟩
  have hsub' : ∀ i ∈ (sortRows params).map (·.1), i ∈ coord.map (·.1) := by
    intro i hi
    apply hsub
    rw [List.mem_map] at hi ⊢
    obtain ⟨x, hx, e⟩ := hi
    exact ⟨x, (sortRows_mem params x).1 hx, e⟩
  have hids : sel.map (·.1) = (sortRows params).map (·.1) := by
    rw [hsel]
    split
    · rename_i hlen
      symm
      have hnd : ((sortRows params).map (·.1)).Nodup := hs'.imp (fun h => Nat.ne_of_lt h)
      have hperm : ((sortRows params).map (·.1)).Perm (coord.map (·.1)) :=
        (List.subperm_of_subset hnd hsub').perm_of_length_le (by simp [hlen])
      exact ascending_unique hs' hc (fun x => hperm.mem_iff)
    · have hf : (coord.filter (fun c => c.1 ∈ (sortRows params).map (·.1))).map (·.1) =
          (coord.map (·.1)).filter (fun i => i ∈ (sortRows params).map (·.1)) := by
        rw [List.filter_map]; rfl
      rw [hf]
      apply ascending_unique (hc.filter _) hs'
      intro x
      rw [List.mem_filter]
      simp only [decide_eq_true_eq]
      exact ⟨fun h => h.2, fun h => ⟨hsub' x h, h⟩⟩
  have hselmem : ∀ c ∈ sel, c ∈ coord := by
    intro c hcm
    rw [hsel] at hcm
    split at hcm
    · exact hcm
    · exact (List.mem_filter.1 hcm).1
  have hlen : sel.length = (sortRows params).length := by
    have := congrArg List.length hids
    simpa using this
  refine ⟨((sortRows params).zip sel).map fun x => (x.1.1, x.1.2, x.2.2), ?_, ?_, ?_, ?_⟩
  · unfold loadWithCoordinates appendCoordinates
    simp only
    rw [← hsel, if_pos hlen]
  · rw [List.map_map]
    have : ((sortRows params).zip sel).map ((fun x : Nat × V × C => x.1) ∘ fun x => (x.1.1, x.1.2, x.2.2)) =
        (sortRows params).map (·.1) := by
      rw [← List.map_fst_zip (l₁ := sortRows params) (l₂ := sel) (by omega), List.map_map,
        List.map_fst_zip (by omega)]
      rfl
    rw [this]
    exact hs'
  · intro i v
    rw [← sortRows_mem params]
    constructor
    · rintro ⟨w, hw⟩
      rw [List.mem_map] at hw
      obtain ⟨x, hx, he⟩ := hw
      simp only [Prod.mk.injEq] at he
      obtain ⟨rfl, rfl, rfl⟩ := he
      exact (List.of_mem_zip hx).1
    · intro h
      obtain ⟨k, hk, hk'⟩ := List.getElem_of_mem h
      have hks : k < sel.length := by omega
      refine ⟨sel[k].2, ?_⟩
      rw [List.mem_map]
      refine ⟨((i, v), sel[k]), ?_, rfl⟩
      have : ((sortRows params).zip sel)[k]'(by simp; omega) = ((i, v), sel[k]) := by
        rw [List.getElem_zip, hk']
      rw [← this]
      exact List.getElem_mem _
  · intro i v w hw
    rw [List.mem_map] at hw
    obtain ⟨x, hx, he⟩ := hw
    simp only [Prod.mk.injEq] at he
    obtain ⟨rfl, rfl, rfl⟩ := he
    obtain ⟨k, hk, hk'⟩ := List.getElem_of_mem hx
    rw [List.getElem_zip] at hk'
    have h1 : k < (sortRows params).length := by simp at hk; omega
    have h2 : k < sel.length := by omega
    have e1 : x.1 = (sortRows params)[k] := by rw [← hk']
    have e2 : x.2 = sel[k] := by rw [← hk']
    have e3 : sel[k].1 = (sortRows params)[k].1 := by
      have := congrArg (fun l => l[k]?) hids
      simp only [List.getElem?_map, List.getElem?_eq_getElem h1, List.getElem?_eq_getElem h2, Option.map_some,
        Option.some.injEq] at this
      exact this
    apply hselmem
    rw [e1, ← e3, e2]
    exact List.getElem_mem _

/-- **C49** for the coordinate tables the program writes (ids 0, 1, 2, …): every set of analysed LEDs of the table gets its
own coordinates. -/
theorem C49_program_tables (params : List (Nat × V)) (coord : List (Nat × C)) (hp : (params.map (·.1)).Nodup)
    (hc : coord.map (·.1) = List.range coord.length) (hsub : ∀ i ∈ params.map (·.1), i < coord.length) :
    ∃ rows, loadWithCoordinates params coord = .ok rows ∧ (rows.map (·.1)).Pairwise (· < ·) ∧
      (∀ i v, (∃ w, (i, v, w) ∈ rows) ↔ (i, v) ∈ params) ∧ ∀ i v w, (i, v, w) ∈ rows → (i, w) ∈ coord := by
  apply C49_right_led params coord hp
  · rw [hc]; exact List.pairwise_lt_range
  · intro i hi
    rw [hc]
    exact List.mem_range.2 (hsub i hi)

/-- **C49**: a result of an LED missing in a larger coordinate table is never loaded. -/
theorem C49_missing_led_fails (params : List (Nat × V)) (coord : List (Nat × C)) (hp : (params.map (·.1)).Nodup)
    (hc : (coord.map (·.1)).Nodup) (hlen : params.length ≠ coord.length) (i : Nat) (hi : i ∈ params.map (·.1))
    (hni : i ∉ coord.map (·.1)) : loadWithCoordinates params coord = .error .valueError := by
  unfold loadWithCoordinates appendCoordinates
  simp only
  rw [sortRows_length, if_neg hlen, if_neg]
  intro h
  have hsp : ∀ j, j ∈ (sortRows params).map (·.1) ↔ j ∈ params.map (·.1) := by
    intro j
    simp only [List.mem_map, sortRows_mem]
  obtain ⟨sel, hsel⟩ : ∃ sel, sel = coord.filter (fun c => c.1 ∈ (sortRows params).map (·.1)) := ⟨_, rfl⟩
  rw [← hsel] at h
  have hnd : (sel.map (·.1)).Nodup := by
    rw [hsel]
    exact hc.sublist (List.filter_sublist.map _)
  have hss : ∀ j ∈ sel.map (·.1), j ∈ (params.map (·.1)).erase i := by
    intro j hj
    rw [List.mem_map] at hj
    obtain ⟨c, hcm, rfl⟩ := hj
    rw [hsel, List.mem_filter] at hcm
    rw [List.Nodup.mem_erase_iff hp]
    refine ⟨?_, (hsp _).1 (of_decide_eq_true hcm.2)⟩
    intro e
    exact hni (e ▸ List.mem_map.2 ⟨c, hcm.1, rfl⟩)
  have := (List.subperm_of_subset hnd hss).length_le
  rw [List.length_erase_of_mem hi, List.length_map, List.length_map, h] at this
  have h0 : 0 < params.length := by
    rcases params with _ | _
    · simp at hi
    · simp
  omega

/-- **C49 refuted for arbitrary tables**: with a table that is not in ascending order the coordinates go to the wrong
LEDs. -/
theorem C49_unsorted_false : ¬ ∀ (params : List (Nat × Unit)) (coord : List (Nat × Nat)), (params.map (·.1)).Nodup →
    (coord.map (·.1)).Nodup → (∀ i ∈ params.map (·.1), i ∈ coord.map (·.1)) →
    ∃ rows, loadWithCoordinates params coord = .ok rows ∧ ∀ i v w, (i, v, w) ∈ rows → (i, w) ∈ coord := by
  intro h
  obtain ⟨rows, hr, hw⟩ := h [(0, ()), (1, ())] [(1, 10), (0, 20)] (by decide) (by decide) (by decide)
  have : rows = [(0, (), 10), (1, (), 20)] := by
    have h2 : loadWithCoordinates [(0, ()), (1, ())] [(1, 10), (0, 20)] = .ok [(0, (), 10), (1, (), 20)] := by rfl
    rw [h2] at hr
    exact (Except.ok.inj hr).symm
  subst this
  have := hw 0 () 10 (by simp)
  revert this
  decide

/-- A subset of the LEDs, in the order of two arrays. -/
example : loadWithCoordinates [(4, "a"), (2, "b"), (0, "c")] [(0, 10), (1, 11), (2, 12), (3, 13), (4, 14)] =
    .ok [(0, "c", 10), (2, "b", 12), (4, "a", 14)] := by rfl

end

end Ledsa
