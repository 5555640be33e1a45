import Verif.Model.Positions
import Verif.Props.Coordinates
/-
C128: the plane fitted through the LEDs, and the widths that follow from it.
-/
namespace Ledsa

/-! ### Least squares -/

theorem planeLoss_nonneg (ps : List P3) (pl : Plane) : 0 ≤ planeLoss ps pl := by
  unfold planeLoss
  apply List.sum_nonneg
  intro x hx
  obtain ⟨p, _, rfl⟩ := List.mem_map.1 hx
  exact sq_nonneg _

theorem residual_zero (pl : Plane) (hb : pl.b ≠ 0) (p : P3) :
    (p.2.1 - -1 / pl.b * (pl.a * p.1 + pl.d)) ^ 2 = 0 ↔ pl.Contains p := by
  unfold Plane.Contains
  rw [sq_eq_zero_iff]
  constructor
  · intro h
    have : pl.b * (p.2.1 - -1 / pl.b * (pl.a * p.1 + pl.d)) = 0 := by rw [h, mul_zero]
    field_simp at this
    linarith
  · intro h
    field_simp
    linarith

theorem planeLoss_zero (ps : List P3) (pl : Plane) (hb : pl.b ≠ 0) : planeLoss ps pl = 0 ↔ ∀ p ∈ ps, pl.Contains p := by
  unfold planeLoss
  constructor
  · intro h p hp
    rw [← residual_zero pl hb]
    have h0 := List.single_le_sum (l := ps.map fun p => (p.2.1 - -1 / pl.b * (pl.a * p.1 + pl.d)) ^ 2)
      (fun x hx => by obtain ⟨q, _, rfl⟩ := List.mem_map.1 hx; exact sq_nonneg _) _ (List.mem_map.2 ⟨p, hp, rfl⟩)
    exact le_antisymm (h0.trans h.le) (sq_nonneg _)
  · intro h
    apply List.sum_eq_zero
    intro x hx
    obtain ⟨p, hp, rfl⟩ := List.mem_map.1 hx
    exact (residual_zero pl hb p).2 (h p hp)

/-! ### C128: walls that are not parallel to the y axis -/

/-- **C128.** If all LEDs are on one wall that is not parallel to the y axis, every fitted plane contains all of them. -/
theorem C128_fit_contains (ps : List P3) (wall : Plane) (hw : wall.b ≠ 0) (hps : ∀ p ∈ ps, wall.Contains p) (pl : Plane) (h : IsFit ps pl) :
    ∀ p ∈ ps, pl.Contains p := by
  rw [← planeLoss_zero ps pl h.1]
  have h1 := h.2 wall hw
  rw [(planeLoss_zero ps wall hw).2 hps] at h1
  exact le_antisymm h1 (planeLoss_nonneg ps pl)

/-- **C128.** If moreover two of the LEDs have different x coordinates, the fitted plane is the wall. -/
theorem C128_fit_is_wall (ps : List P3) (wall : Plane) (hw : wall.b ≠ 0) (hps : ∀ p ∈ ps, wall.Contains p) (pl : Plane) (h : IsFit ps pl)
    (p q : P3) (hp : p ∈ ps) (hq : q ∈ ps) (hpq : p.1 ≠ q.1) (x : P3) : pl.Contains x ↔ wall.Contains x := by
  have c := C128_fit_contains ps wall hw hps pl h
  have hb := h.1
  have p1 := hps p hp
  have q1 := hps q hq
  have p2 := c p hp
  have q2 := c q hq
  unfold Plane.Contains at *
  have hd : p.1 - q.1 ≠ 0 := sub_ne_zero.2 hpq
  -- proportional coefficients
  have ha : pl.a * wall.b = wall.a * pl.b := by
    have : (p.1 - q.1) * (pl.a * wall.b - wall.a * pl.b) = 0 := by linear_combination wall.b * (p2 - q2) - pl.b * (p1 - q1)
    rcases mul_eq_zero.1 this with h0 | h0
    · exact absurd h0 hd
    · linarith
  have hdd : pl.d * wall.b = wall.d * pl.b := by linear_combination wall.b * p2 - pl.b * p1 - p.1 * ha
  constructor
  · intro hx
    have : pl.b * (wall.a * x.1 + wall.b * x.2.1 + wall.d) = 0 := by linear_combination wall.b * hx - x.1 * ha - hdd
    exact (mul_eq_zero.1 this).resolve_left hb
  · intro hx
    have : wall.b * (pl.a * x.1 + pl.b * x.2.1 + pl.d) = 0 := by linear_combination pl.b * hx + x.1 * ha + hdd
    exact (mul_eq_zero.1 this).resolve_left hw

theorem project_contained (pl : Plane) (p : P3) (h : pl.Contains p) : projectToPlane pl p = p := by
  unfold Plane.Contains at h
  unfold projectToPlane
  simp [h]

theorem columnsAsPoints_four (rows : List P3) (hn : 4 ≤ rows.length) : columnsAsPoints rows = rows := by
  unfold columnsAsPoints
  split
  · simp at hn
  · rfl

/-- The widths of at least four LEDs on a plane that contains them. -/
theorem coordinates2d_contained (fit : List P3 → Plane) (rows : List P3) (hn : 4 ≤ rows.length) (h : ∀ p ∈ rows, (fit rows).Contains p) :
    coordinates2d fit rows = planeCoordinates (fit rows) rows := by
  unfold coordinates2d
  simp only [columnsAsPoints_four rows hn]
  rw [if_neg (by omega)]
  congr 1
  conv_rhs => rw [← List.map_id rows]
  exact List.map_congr_left fun p hp => project_contained _ p (h p hp)

/-- **C128, partial.** At least four LEDs on a wall parallel to the x axis, on one side of `x = 0`: whichever least squares plane is found,
the difference of the widths of two LEDs is their distance along the wall. Missing (and false): other walls. -/
theorem C128_parallel_x_partial (fit : List P3 → Plane) (rows : List P3) (hn : 4 ≤ rows.length) (hf : IsFit rows (fit rows)) (c : ℝ)
    (hc : ∀ p ∈ rows, p.2.1 = c) (hside : (∀ p ∈ rows, 0 ≤ p.1) ∨ ∀ p ∈ rows, p.1 ≤ 0) :
    ∃ res, coordinates2d fit rows = .ok res ∧ res.length = rows.length ∧ ∀ (i j : ℕ) (p q : P3) (wp wq : ℝ × ℝ), rows[i]? = some p →
      rows[j]? = some q → res[i]? = some wp → res[j]? = some wq → |wp.1 - wq.1| = wallDist p q := by
  have hcon : ∀ p ∈ rows, (⟨0, 1, -c⟩ : Plane).Contains p := by
    intro p hp
    unfold Plane.Contains
    rw [hc p hp]
    ring
  have hpl := C128_fit_contains rows ⟨0, 1, -c⟩ one_ne_zero hcon (fit rows) hf
  obtain ⟨res, r1, r2, _⟩ := C37_own_coordinates_partial fit rows hn
  refine ⟨res, r1, r2, ?_⟩
  intro i j p q wp wq hp hq hwp hwq
  rw [coordinates2d_contained fit rows hn hpl] at r1
  have hpm := List.mem_of_getElem? hp
  have hqm := List.mem_of_getElem? hq
  by_cases hx : ∃ p ∈ rows, ∃ q ∈ rows, p.1 ≠ q.1
  · obtain ⟨u, hu, v, hv, huv⟩ := hx
    have ha : (fit rows).a = 0 := by
      have h1 := hpl u hu
      have h2 := hpl v hv
      unfold Plane.Contains at h1 h2
      rw [hc u hu] at h1
      rw [hc v hv] at h2
      have : (fit rows).a * (u.1 - v.1) = 0 := by linear_combination h1 - h2
      exact (mul_eq_zero.1 this).resolve_right (sub_ne_zero.2 huv)
    exact C36_isometry_partial (fit rows) hf.1 ha rows hpl hside res r1 i j p q wp wq hp hq hwp hwq
  · have hpq : p.1 = q.1 := by
      by_contra h
      exact hx ⟨p, hpm, q, hqm, h⟩
    rw [C36_width_difference (fit rows) hf.1 rows hpl res r1 i j p q wp wq hp hq hwp hwq, hpq, sub_self, zero_mul, abs_zero]
    unfold wallDist
    rw [hpq, hc p hpm, hc q hqm]
    simp

/-- **C128**: vertical strips. If all LEDs are above each other, all widths are 0, whichever plane is found. -/
theorem C128_strip (fit : List P3 → Plane) (rows : List P3) (hn : 4 ≤ rows.length) (hf : IsFit rows (fit rows)) (x y : ℝ)
    (hc : ∀ p ∈ rows, p.1 = x ∧ p.2.1 = y) :
    ∃ res, coordinates2d fit rows = .ok res ∧ res.length = rows.length ∧ ∀ w ∈ res, w.1 = 0 := by
  have hcon : ∀ p ∈ rows, (⟨0, 1, -y⟩ : Plane).Contains p := by
    intro p hp
    unfold Plane.Contains
    rw [(hc p hp).2]
    ring
  have hpl := C128_fit_contains rows ⟨0, 1, -y⟩ one_ne_zero hcon (fit rows) hf
  obtain ⟨res, r1, r2, _⟩ := C37_own_coordinates_partial fit rows hn
  refine ⟨res, r1, r2, ?_⟩
  rw [coordinates2d_contained fit rows hn hpl] at r1
  obtain ⟨res', s1, s2, s3, s4⟩ := C36_widths_from_zero (fit rows) rows (by rintro rfl; simp at hn)
  rw [r1, Except.ok.injEq] at s1
  subst s1
  obtain ⟨w0, hw0, hz⟩ := List.mem_map.1 s4
  intro w hw
  obtain ⟨i, hi⟩ := List.getElem?_of_mem hw
  obtain ⟨j, hj⟩ := List.getElem?_of_mem hw0
  have hil : i < rows.length := by rw [← r2]; exact (List.getElem?_eq_some_iff.1 hi).1
  have hjl : j < rows.length := by rw [← r2]; exact (List.getElem?_eq_some_iff.1 hj).1
  have := C36_width_difference (fit rows) hf.1 rows hpl res r1 i j rows[i] rows[j] w w0 (List.getElem?_eq_getElem hil)
    (List.getElem?_eq_getElem hjl) hi hj
  rw [(hc _ (List.getElem_mem hil)).1, (hc _ (List.getElem_mem hjl)).1, sub_self, zero_mul, hz, sub_zero] at this
  exact this

/-- **C128 refuted, oblique walls**: at least four LEDs on a wall neither parallel to the x axis nor to the y axis, two of them with different
x coordinates, all at `x ≥ 0`: whichever plane is found, all width differences are too large, by the same factor `√(1 + (a/b)²)`. -/
theorem C128_oblique_false (fit : List P3 → Plane) (rows : List P3) (hn : 4 ≤ rows.length) (hf : IsFit rows (fit rows)) (wall : Plane)
    (hw : wall.b ≠ 0) (hps : ∀ p ∈ rows, wall.Contains p) (u v : P3) (hu : u ∈ rows) (hv : v ∈ rows) (huv : u.1 ≠ v.1)
    (hside : ∀ p ∈ rows, 0 ≤ p.1) :
    ∃ res, coordinates2d fit rows = .ok res ∧ res.length = rows.length ∧ ∀ (i j : ℕ) (p q : P3) (wp wq : ℝ × ℝ), rows[i]? = some p →
      rows[j]? = some q → res[i]? = some wp → res[j]? = some wq →
      |wp.1 - wq.1| = Real.sqrt (1 + (wall.a / wall.b) ^ 2) * wallDist p q := by
  have hpl := C128_fit_contains rows wall hw hps (fit rows) hf
  obtain ⟨res, r1, r2, _⟩ := C37_own_coordinates_partial fit rows hn
  refine ⟨res, r1, r2, ?_⟩
  intro i j p q wp wq hp hq hwp hwq
  rw [coordinates2d_contained fit rows hn hpl] at r1
  rw [C36_oblique_stretched (fit rows) hf.1 rows hpl hside res r1 i j p q wp wq hp hq hwp hwq]
  congr 1
  have hb := hf.1
  have hratio : (fit rows).a / (fit rows).b = wall.a / wall.b := by
    have p1 := hps u hu
    have q1 := hps v hv
    have p2 := hpl u hu
    have q2 := hpl v hv
    unfold Plane.Contains at p1 q1 p2 q2
    have : (u.1 - v.1) * ((fit rows).a * wall.b - wall.a * (fit rows).b) = 0 := by
      linear_combination wall.b * (p2 - q2) - (fit rows).b * (p1 - q1)
    have := (mul_eq_zero.1 this).resolve_left (sub_ne_zero.2 huv)
    rw [div_eq_div_iff hb hw]
    linarith
  rw [← hratio, ← Real.sqrt_sq_eq_abs, ← Real.sqrt_div (by positivity)]
  congr 1
  field_simp
  ring

/-! ### C128: walls parallel to the y axis -/

theorem sum_residuals (ps : List P3) (u : ℝ) :
    (ps.map fun p => (p.2.1 - u) ^ 2).sum =
      (ps.map fun p => p.2.1 ^ 2).sum - 2 * u * (ps.map fun p => p.2.1).sum + ps.length * u ^ 2 := by
  induction ps with
  | nil => simp
  | cons p ps ih =>
    simp only [List.map_cons, List.sum_cons, List.length_cons]
    rw [ih]
    push_cast
    ring

/-- The mean of the y coordinates. -/
noncomputable def meanY (ps : List P3) : ℝ := (ps.map fun p => p.2.1).sum / ps.length

/-- All LEDs at `x = c`: the planes of least squares are exactly those through the mean of the LEDs, with any slope. -/
theorem fit_parallel_y_iff (ps : List P3) (hne : ps ≠ []) (c : ℝ) (hc : ∀ p ∈ ps, p.1 = c) (pl : Plane) :
    IsFit ps pl ↔ pl.b ≠ 0 ∧ pl.Contains (c, meanY ps, 0) := by
  have hlen : (0 : ℝ) < ps.length := by exact_mod_cast List.length_pos_iff.2 hne
  have hloss : ∀ q : Plane, q.b ≠ 0 → planeLoss ps q = planeLoss ps ⟨0, 1, -meanY ps⟩ + ps.length * (-1 / q.b * (q.a * c + q.d) - meanY ps) ^ 2 := by
    intro q hq
    have h1 : ∀ r : Plane, planeLoss ps r = (ps.map fun p => (p.2.1 - -1 / r.b * (r.a * c + r.d)) ^ 2).sum := by
      intro r
      unfold planeLoss
      congr 1
      exact List.map_congr_left fun p hp => by rw [hc p hp]
    rw [h1, h1, sum_residuals, sum_residuals]
    have hm : (ps.map fun p => p.2.1).sum = meanY ps * ps.length := by unfold meanY; field_simp
    rw [hm]
    ring
  have hcontains : ∀ q : Plane, q.b ≠ 0 → (-1 / q.b * (q.a * c + q.d) - meanY ps = 0 ↔ q.Contains (c, meanY ps, 0)) := by
    intro q hq
    have := residual_zero q hq (c, meanY ps, 0)
    rw [sq_eq_zero_iff] at this
    rw [← this]
    constructor
    · intro h
      simp only
      linarith
    · intro h
      simp only at h
      linarith
  constructor
  · rintro ⟨hb, h⟩
    refine ⟨hb, ?_⟩
    rw [← hcontains pl hb]
    have h1 := h ⟨0, 1, -meanY ps⟩ one_ne_zero
    rw [hloss pl hb] at h1
    have h2 : (-1 / pl.b * (pl.a * c + pl.d) - meanY ps) ^ 2 ≤ 0 := by
      by_contra hcon
      push Not at hcon
      have := mul_pos hlen hcon
      linarith
    exact pow_eq_zero_iff (two_ne_zero) |>.1 (le_antisymm h2 (sq_nonneg _))
  · rintro ⟨hb, h⟩
    refine ⟨hb, ?_⟩
    intro q hq
    rw [hloss pl hb, hloss q hq, (hcontains pl hb).2 h]
    have : 0 ≤ (ps.length : ℝ) * (-1 / q.b * (q.a * c + q.d) - meanY ps) ^ 2 := by positivity
    linarith

/-- **C128, exact law** for walls parallel to the y axis: which width difference two LEDs get depends on the slope `a / b` of the plane found,
which the data do not determine. If the projections are on one side of `x = 0`, the factor is `|a / b|`. -/
theorem C128_parallel_y (fit : List P3 → Plane) (rows : List P3) (hn : 4 ≤ rows.length) (hf : IsFit rows (fit rows)) (c : ℝ)
    (hc : ∀ p ∈ rows, p.1 = c) (hside : ∀ p ∈ rows, 0 ≤ (projectToPlane (fit rows) p).1) :
    ∃ res, coordinates2d fit rows = .ok res ∧ res.length = rows.length ∧ ∀ (i j : ℕ) (p q : P3) (wp wq : ℝ × ℝ), rows[i]? = some p →
      rows[j]? = some q → res[i]? = some wp → res[j]? = some wq →
      |wp.1 - wq.1| = |(fit rows).a / (fit rows).b| * wallDist p q := by
  obtain ⟨res, r1, r2, m, r3⟩ := C37_own_coordinates_partial fit rows hn
  refine ⟨res, r1, r2, ?_⟩
  intro i j p q wp wq hp hq hwp hwq
  have hb := hf.1
  have hpm := List.mem_of_getElem? hp
  have hqm := List.mem_of_getElem? hq
  rw [r3 i p hp, Option.some.injEq] at hwp
  rw [r3 j q hq, Option.some.injEq] at hwq
  rw [← hwp, ← hwq]
  simp only
  rw [rawWidth_on_plane _ hb _ (C35_projection _ hb p).1, rawWidth_on_plane _ hb _ (C35_projection _ hb q).1,
    abs_of_nonneg (hside p hpm), abs_of_nonneg (hside q hqm)]
  have hdiff : (projectToPlane (fit rows) p).1 - (projectToPlane (fit rows) q).1 =
      -((fit rows).a * (fit rows).b * (p.2.1 - q.2.1)) / ((fit rows).a ^ 2 + (fit rows).b ^ 2) := by
    unfold projectToPlane
    simp only
    rw [hc p hpm, hc q hqm]
    ring
  have hn2 : (fit rows).a ^ 2 + (fit rows).b ^ 2 ≠ 0 := by positivity
  have hw : wallDist p q = |p.2.1 - q.2.1| := by
    unfold wallDist
    rw [hc p hpm, hc q hqm, sub_self, zero_pow two_ne_zero, zero_add, Real.sqrt_sq_eq_abs]
  rw [hw, sub_sub_sub_cancel_right, ← sub_mul, hdiff, ← abs_mul]
  have habs : |(fit rows).b| ≠ 0 := abs_ne_zero.2 hb
  have : -((fit rows).a * (fit rows).b * (p.2.1 - q.2.1)) / ((fit rows).a ^ 2 + (fit rows).b ^ 2) *
      (((fit rows).a ^ 2 + (fit rows).b ^ 2) / ((fit rows).b * |(fit rows).b|)) = -((fit rows).a * (p.2.1 - q.2.1) / |(fit rows).b|) := by
    field_simp
  rw [this, abs_neg, abs_div, abs_abs, abs_mul, abs_mul, abs_div]
  ring

/-- **C128 refuted**: for every set of at least four LEDs on a wall parallel to the y axis there is a least squares plane with which all of them
get the same width. -/
theorem C128_parallel_y_false (rows : List P3) (hn : 4 ≤ rows.length) (c : ℝ) (hc : ∀ p ∈ rows, p.1 = c) :
    ∃ fit : List P3 → Plane, IsFit rows (fit rows) ∧ ∃ res, coordinates2d fit rows = .ok res ∧ res.length = rows.length ∧ ∀ w ∈ res, w.1 = 0 := by
  have hne : rows ≠ [] := by rintro rfl; simp at hn
  have hfit : IsFit rows ⟨0, 1, -meanY rows⟩ := by
    rw [fit_parallel_y_iff rows hne c hc]
    refine ⟨one_ne_zero, ?_⟩
    unfold Plane.Contains
    simp
  refine ⟨fun _ => ⟨0, 1, -meanY rows⟩, hfit, ?_⟩
  have hproj : ∀ p ∈ rows, projectToPlane ⟨0, 1, -meanY rows⟩ p = (c, meanY rows, p.2.2) := by
    intro p hp
    unfold projectToPlane
    rw [← hc p hp]
    ext
    · simp
    · simp
    · simp
  unfold coordinates2d
  simp only [columnsAsPoints_four rows hn]
  rw [if_neg (by omega)]
  obtain ⟨res, s1, s2, s3, s4⟩ := C36_widths_from_zero ⟨0, 1, -meanY rows⟩ (rows.map (projectToPlane ⟨0, 1, -meanY rows⟩)) (by simpa using hne)
  refine ⟨res, s1, by simpa using congrArg List.length s2, ?_⟩
  unfold planeCoordinates at s1
  split at s1
  · cases s1
  rename_i m hm
  obtain rfl := Except.ok.inj s1
  -- all widths are equal, and one is 0
  have hall : ∀ p ∈ rows, rawWidth ⟨0, 1, -meanY rows⟩ (projectToPlane ⟨0, 1, -meanY rows⟩ p) - m =
      rawWidth ⟨0, 1, -meanY rows⟩ (c, meanY rows, 0) - m := by
    intro p hp
    rw [hproj p hp]
    rfl
  obtain ⟨w0, hw0, hz⟩ := List.mem_map.1 s4
  obtain ⟨p0, hp0, rfl⟩ := List.mem_map.1 hw0
  obtain ⟨q0, hq0, rfl⟩ := List.mem_map.1 hp0
  intro w hw
  obtain ⟨p, hp, rfl⟩ := List.mem_map.1 hw
  obtain ⟨q, hq, rfl⟩ := List.mem_map.1 hp
  simp only at hz ⊢
  rw [hall q hq, ← hall q0 hq0, hz]

/-! Four LEDs on the wall `y = 3`, and four on the wall `x = 2`. -/

example : ∃ res, coordinates2d (fun _ => ⟨0, 2, -6⟩) [(1, 3, 0), (2, 3, 0), (4, 3, 1), (5, 3, 2)] = .ok res ∧ res.length = 4 ∧
    ∀ (i j : ℕ) (p q : P3) (wp wq : ℝ × ℝ), ([(1, 3, 0), (2, 3, 0), (4, 3, 1), (5, 3, 2)] : List P3)[i]? = some p →
      ([(1, 3, 0), (2, 3, 0), (4, 3, 1), (5, 3, 2)] : List P3)[j]? = some q → res[i]? = some wp → res[j]? = some wq → |wp.1 - wq.1| = wallDist p q := by
  apply C128_parallel_x_partial (fun _ => ⟨0, 2, -6⟩) [(1, 3, 0), (2, 3, 0), (4, 3, 1), (5, 3, 2)] (by simp) ?_ 3 (by simp) (Or.inl (by simp))
  refine ⟨two_ne_zero, ?_⟩
  intro q hq
  rw [(planeLoss_zero _ ⟨0, 2, -6⟩ two_ne_zero).2]
  · exact planeLoss_nonneg _ _
  · intro p hp
    unfold Plane.Contains
    simp only [List.mem_cons, List.not_mem_nil, or_false] at hp
    rcases hp with rfl | rfl | rfl | rfl <;> norm_num

example : IsFit [(2, 1, 0), (2, 2, 0), (2, 3, 1), (2, 6, 2)] ⟨5, 1, -13⟩ := by
  rw [fit_parallel_y_iff _ (by simp) 2 (by simp)]
  refine ⟨one_ne_zero, ?_⟩
  unfold Plane.Contains meanY
  norm_num

end Ledsa
