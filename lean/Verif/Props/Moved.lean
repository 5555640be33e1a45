import Verif.Props.Exposure
import Verif.Props.Session
/-
C149, C150 continued: steps 2 and 3 after a change of the exposure or of the position of the camera.
-/
namespace Ledsa

variable {D : Type} [LinearOrder D] [Add D] [Mul D]

/-! ### Specification -/

/-- A table of LEDs moved by `a` rows and `b` columns. -/
def LedTable.moved (a b : ℕ) (t : LedTable) : LedTable := t.map fun l => (l.1, l.2.1 + a, l.2.2 + b)

/-- The distance of two pixels does not change when both are moved. -/
def Metric.Translates (m : Metric D) (a b : ℕ) : Prop := ∀ p q : ℤ × ℤ, m.dist (p.1 + a, p.2 + b) (q.1 + a, q.2 + b) = m.dist p q

/-- The second photo shows what the first shows, moved by `a` rows and `b` columns, as far as both show it. -/
def MovedPhoto (a b : ℕ) (photo photo' : Image ℚ) : Prop :=
  ∀ i j, i < photo.h → j < photo.w → i + a < photo'.h → j + b < photo'.w → photo'.px (i + a) (j + b) = photo.px i j

/-- The search area of an LED lies inside both photos. -/
def AreaInside (a b R : ℕ) (photo photo' : Image ℚ) (p : ℤ × ℤ) : Prop :=
  (R : ℤ) ≤ p.1 ∧ (R : ℤ) ≤ p.2 ∧ p.1 + R ≤ photo.h ∧ p.2 + R ≤ photo.w ∧ p.1 + R + a ≤ photo'.h ∧ p.2 + R + b ≤ photo'.w

/-- The detection of the second experiment is that of the first with a moved (and perhaps otherwise exposed) photo. -/
structure MovedJob (a b : ℕ) (j j' : Step1Job) : Prop where
  radius : j'.radius = j.radius
  limit : j'.maxLeds = j.maxLeds
  thr : 0 ≤ j.thr ∧ 0 ≤ j'.thr
  size : 0 < j.img.h ∧ 0 < j.img.w ∧ 0 < j'.img.h ∧ 0 < j'.img.w
  same : SamePixels a b j.img j.thr j'.img j'.thr
  border : ∀ p, LitAbove j.img j.thr p → j.radius ≤ p.1 ∧ j.radius ≤ p.2

/-- The same invocations with moved photos. -/
inductive MovedCmd (a b : ℕ) : ExtCmd → ExtCmd → Prop
  | step1 {j j' : Step1Job} (h : MovedJob a b j j') : MovedCmd a b (.step1 j) (.step1 j')
  | step2 (o : Step2Options) : MovedCmd a b (.step2 o) (.step2 o)
  | steps12 {j j' : Step1Job} (h : MovedJob a b j j') (o : Step2Options) : MovedCmd a b (.steps12 j o) (.steps12 j' o)

/-- The photos searched in a history. -/
def ExtCmd.job : ExtCmd → Option Step1Job
  | .step1 j => some j
  | .step2 _ => none
  | .steps12 j _ => some j

/-! ### Matching does not see where the photo is -/

omit [Add D] [Mul D] in
theorem firstMin_map {α β : Type} (key : α → D) (key' : β → D) (f : α → β) (h : ∀ x, key' (f x) = key x) (l : List α) :
    firstMin key' (l.map f) = (firstMin key l).map f := by
  cases l with
  | nil => rfl
  | cons x xs =>
    simp only [List.map_cons, firstMin, Option.map_some, Option.some.injEq]
    induction xs generalizing x with
    | nil => rfl
    | cons y ys ih =>
      simp only [List.map_cons, List.foldl_cons, h]
      split
      · exact ih y
      · exact ih x

section
variable {P Q : Type} (dist : P → P → D) (dist' : Q → Q → D) (g : P → Q) (hd : ∀ x y, dist' (g x) (g y) = dist x y)

/-- A table with other positions. -/
def LedDict.place {P Q : Type} (g : P → Q) (d : LedDict P) : LedDict Q := d.map fun e => (e.1, g e.2)

theorem place_del (d : LedDict P) (id : ℕ) : (d.place g).del id = (d.del id).place g := by
  unfold LedDict.place LedDict.del
  rw [List.filter_map]
  rfl

theorem place_find (d : LedDict P) (id : ℕ) : (d.place g).find id = (d.find id).map g := by
  unfold LedDict.place LedDict.find
  rw [List.find?_map, Option.map_map, Option.map_map]
  rfl

theorem place_findI (d : LedDict P) (id : ℤ) : (d.place g).findI id = (d.findI id).map g := by
  unfold LedDict.findI
  split
  · exact place_find g d _
  · rfl

theorem place_length (d : LedDict P) : (d.place g).length = d.length := List.length_map _

include hd

omit [Add D] [Mul D] in
theorem neighbours_place (loc : P) (n : ℕ) : ∀ d : LedDict P, neighbours dist' (g loc) n (d.place g) = (neighbours dist loc n d).place g := by
  induction n with
  | zero => intro d; rfl
  | succ n ih =>
    intro d
    simp only [neighbours]
    have : firstMin (fun e : ℕ × Q => dist' (g loc) e.2) (d.place g) = (firstMin (fun e : ℕ × P => dist loc e.2) d).map fun e => (e.1, g e.2) :=
      firstMin_map (fun e : ℕ × P => dist loc e.2) (fun e : ℕ × Q => dist' (g loc) e.2) (fun e : ℕ × P => (e.1, g e.2)) (fun e => hd loc e.2) d
    rw [this]
    cases firstMin (fun e : ℕ × P => dist loc e.2) d with
    | none => rfl
    | some e =>
      simp only [Option.map_some]
      rw [place_del, ih]
      rfl

theorem findNextLed_place (maxN : ℕ) (w : D) (refLoc loc : P) (d : LedDict P) :
    findNextLed dist' maxN w (g refLoc) (g loc) (d.place g) = (findNextLed dist maxN w refLoc loc d).map fun e => (e.1, g e.2) := by
  unfold findNextLed
  rw [place_length, neighbours_place dist dist' g hd]
  exact firstMin_map _ _ _ (fun e => by simp only [hd]) _

theorem walk_place (maxN : ℕ) (w : D) (lastId : ℕ) (refLoc : P) (fuel : ℕ) : ∀ (id : ℕ) (loc : P) (d : LedDict P),
    walk dist' maxN w lastId (g refLoc) fuel id (g loc) (d.place g) =
      ((walk dist maxN w lastId refLoc fuel id loc d).1, (walk dist maxN w lastId refLoc fuel id loc d).2.place g) := by
  induction fuel with
  | zero => intro id loc d; rfl
  | succ n ih =>
    intro id loc d
    have he : (d.place g).isEmpty = d.isEmpty := by cases d <;> rfl
    simp only [walk, he]
    split
    · rfl
    · rw [place_del, findNextLed_place dist dist' g hd]
      cases findNextLed dist maxN w refLoc loc (d.del id) with
      | none => rfl
      | some e =>
        simp only [Option.map_some]
        split
        · rw [place_del]
        · rw [ih]

theorem matchAll_place (maxN : ℕ) (w : D) (edges : List (ℤ × ℤ)) : ∀ d : LedDict P,
    matchAll dist' maxN w edges (d.place g) = (matchAll dist maxN w edges d).map fun r => (r.1, r.2.place g) := by
  induction edges with
  | nil => intro d; rfl
  | cons e es ih =>
    intro d
    have h1 : matchOne dist' maxN w e (d.place g) = (matchOne dist maxN w e d).map fun r => (r.1, r.2.place g) := by
      unfold matchOne
      rw [place_findI, place_findI, place_length]
      cases d.findI e.1 with
      | none => rfl
      | some loc =>
        cases d.findI e.2 with
        | none => rfl
        | some refLoc =>
          simp only [Option.map_some, Except.map]
          rw [walk_place dist dist' g hd]
    simp only [matchAll]
    rw [h1]
    cases matchOne dist maxN w e d with
    | error x => rfl
    | ok r =>
      simp only [Except.map]
      rw [ih]
      cases matchAll dist maxN w es r.2 with
      | error x => rfl
      | ok r' => rfl

theorem matchLeds_place (maxN : ℕ) (w : D) (edges : List (ℤ × ℤ)) (ignore : Str) (d : LedDict P) :
    matchLeds dist' maxN w edges ignore (d.place g) = matchLeds dist maxN w edges ignore d := by
  unfold matchLeds
  rw [matchAll_place dist dist' g hd]
  cases matchAll dist maxN w edges d with
  | error x => rfl
  | ok r =>
    simp only [Except.map]
    congr 2
    unfold LedDict.place
    rw [List.map_map]
    rfl

end

/-- **C150**, step 2: the arrays of a moved photo are those of the photo. -/
theorem C150_arrays (m : Metric D) (a b : ℕ) (hm : m.Translates a b) (o : Step2Options) (t : LedTable) :
    arraysOf m o (t.moved a b) = arraysOf m o t := by
  unfold arraysOf
  have := matchLeds_place m.dist m.dist (fun p : ℤ × ℤ => (p.1 + a, p.2 + b)) (fun x y => hm x y) m.neighbours m.weight (edgeIndices o.edges) o.ignore t
  have e : LedDict.place (fun p : ℤ × ℤ => (p.1 + (a : ℤ), p.2 + (b : ℤ))) t = LedTable.moved a b t := rfl
  rw [← e, this]

theorem reorder_moved (a b : ℕ) (t : LedTable) (arrays : List (List ℕ)) :
    reorderSearchAreas (t.moved a b) arrays = (reorderSearchAreas t arrays).map fun t' => LedTable.moved a b t' := by
  unfold reorderSearchAreas
  have key : ∀ l : List ℕ, (l.mapM fun i => (t.moved a b)[i]?) = (l.mapM fun i => t[i]?).map fun r => LedTable.moved a b r := by
    intro l
    induction l with
    | nil => rfl
    | cons x xs ih =>
      rw [List.mapM_cons, List.mapM_cons, ih]
      have : (t.moved a b)[x]? = (t[x]?).map fun l => (l.1, l.2.1 + (a : ℤ), l.2.2 + (b : ℤ)) := by
        unfold LedTable.moved
        rw [List.getElem?_map]
      rw [this]
      cases t[x]? with
      | none => rfl
      | some e =>
        cases xs.mapM fun i => t[i]? with
        | none => rfl
        | some r => rfl
  rw [key]
  cases arrays.flatten.mapM fun i => t[i]? with
  | none => rfl
  | some rows =>
    simp only [Option.map_some, Except.map, Except.ok.injEq]
    unfold LedTable.moved
    rw [List.zipIdx_map, List.map_map, List.map_map]
    rfl

theorem reorder_positions (t : LedTable) (arrays : List (List ℕ)) (t' : LedTable) (h : reorderSearchAreas t arrays = .ok t') :
    ∀ l ∈ t', ∃ l0 ∈ t, l.2 = l0.2 := by
  unfold reorderSearchAreas at h
  have key : ∀ (l : List ℕ) (r : List (ℕ × ℤ × ℤ)), (l.mapM fun i => t[i]?) = some r → ∀ x ∈ r, x ∈ t := by
    intro l
    induction l with
    | nil =>
      intro r hr x hx
      rw [List.mapM_nil] at hr
      cases hr
      cases hx
    | cons y ys ih =>
      intro r hr x hx
      rw [List.mapM_cons] at hr
      cases e : t[y]? with
      | none => rw [e] at hr; cases hr
      | some z =>
        rw [e] at hr
        cases e2 : ys.mapM fun i => t[i]? with
        | none => rw [e2] at hr; cases hr
        | some zs =>
          rw [e2] at hr
          cases hr
          rcases List.mem_cons.1 hx with rfl | hx
          · exact List.mem_of_getElem? e
          · exact ih zs e2 x hx
  cases e : arrays.flatten.mapM fun i => t[i]? with
  | none => rw [e] at h; cases h
  | some rows =>
    rw [e] at h
    cases h
    intro l hl
    obtain ⟨z, hz, rfl⟩ := List.mem_map.1 hl
    exact ⟨z.1, key _ _ e _ (List.fst_mem_of_mem_zipIdx hz), rfl⟩

/-! ### The directory -/

/-- The files of two experiments that differ by the position of the camera; the LEDs satisfy `P`. -/
def MovedDisk (a b : ℕ) (P : ℤ × ℤ → Prop) (d d' : ExtDisk) : Prop :=
  d'.flag = d.flag ∧ d'.index = d.index ∧ ((d.areas = none ∧ d'.areas = none) ∨
    ∃ c t, d.areas = some (tableText c t) ∧ d'.areas = some (tableText c (LedTable.moved a b t)) ∧ ∀ l ∈ t, P l.2)

theorem moved_nil (a b : ℕ) (t : LedTable) : t.moved a b = [] ↔ t = [] := List.map_eq_nil_iff

theorem runStep1_moved (a b : ℕ) (P : ℤ × ℤ → Prop) (t : LedTable) (hP : ∀ l ∈ t, P l.2) (d d' : ExtDisk) (h : MovedDisk a b P d d') :
    MovedDisk a b P (runStep1 t d).1 (runStep1 (t.moved a b) d').1 ∧ (runStep1 (t.moved a b) d').2 = (runStep1 t d).2 := by
  obtain ⟨h1, h2, _⟩ := h
  unfold runStep1
  by_cases ht : t = []
  · simp only [ht, if_pos, (moved_nil a b []).2 rfl]
    exact ⟨⟨h1, h2, Or.inr ⟨false, [], rfl, rfl, by simp⟩⟩, trivial⟩
  · simp only [ht, if_false, moved_nil a b t]
    exact ⟨⟨rfl, h2, Or.inr ⟨false, t, rfl, rfl, hP⟩⟩, trivial⟩

theorem matchTable_moved (m : Metric D) (a b : ℕ) (hm : m.Translates a b) (P : ℤ × ℤ → Prop) (o : Step2Options) (t : LedTable) (hP : ∀ l ∈ t, P l.2)
    (d d' : ExtDisk) (h : MovedDisk a b P d d') :
    MovedDisk a b P (matchTable m o t d).1 (matchTable m o (t.moved a b) d').1 := by
  unfold matchTable
  rw [C150_arrays m a b hm]
  cases arraysOf m o t with
  | error e => exact h
  | ok arrays =>
    simp only
    rw [reorder_moved]
    cases e : reorderSearchAreas t arrays with
    | error e => exact h
    | ok t' =>
      simp only [Except.map]
      have hP' : ∀ l ∈ t', P l.2 := by
        intro l hl
        obtain ⟨l0, h0, e0⟩ := reorder_positions t arrays t' e l hl
        rw [e0]
        exact hP l0 h0
      obtain ⟨h1, h2, _⟩ := h
      by_cases ht : t' = []
      · simp only [ht, if_pos, (moved_nil a b []).2 rfl]
        exact ⟨h1, h2, Or.inr ⟨true, [], rfl, rfl, by simp⟩⟩
      · simp only [ht, if_false, moved_nil a b t']
        exact ⟨rfl, by rw [h2], Or.inr ⟨true, t', rfl, rfl, hP'⟩⟩

theorem runStep2_moved (m : Metric D) (a b : ℕ) (hm : m.Translates a b) (P : ℤ × ℤ → Prop) (o : Step2Options) (d d' : ExtDisk) (h : MovedDisk a b P d d') :
    MovedDisk a b P (runStep2 m o d).1 (runStep2 m o d').1 := by
  have h0 := h
  obtain ⟨h1, h2, h3⟩ := h
  unfold runStep2
  rw [h1]
  split
  · exact h0
  · rcases h3 with ⟨e1, e2⟩ | ⟨c, t, e1, e2, hP⟩
    · rw [e1, e2]
      exact h0
    · rw [e1, e2]
      simp only [loadTable_text]
      have hlen : (t.moved a b).length = t.length := List.length_map _
      rw [hlen]
      split
      · exact h0
      · exact matchTable_moved m a b hm P o t hP d d' h0

theorem runSteps12_moved (m : Metric D) (a b : ℕ) (hm : m.Translates a b) (P : ℤ × ℤ → Prop) (o : Step2Options) (t : LedTable) (hP : ∀ l ∈ t, P l.2)
    (d d' : ExtDisk) (h : MovedDisk a b P d d') :
    MovedDisk a b P (runSteps12 m o t d).1 (runSteps12 m o (t.moved a b) d').1 := by
  obtain ⟨g1, g2⟩ := runStep1_moved a b P t hP d d' h
  unfold runSteps12
  rcases e : runStep1 t d with ⟨d1, r⟩
  rcases e' : runStep1 (t.moved a b) d' with ⟨d1', r'⟩
  rw [e, e'] at g1 g2
  simp only at g1 g2
  subst g2
  cases r' with
  | error x => exact g1
  | ok u =>
    simp only
    rw [g1.1]
    split
    · exact g1
    · exact matchTable_moved m a b hm P o t hP d1 d1' g1

theorem movedJob_table {maxLoc : Image ℚ → ℕ × ℕ} (hmax : IsFirstMaxLoc maxLoc) {a b : ℕ} {j j' : Step1Job} (h : MovedJob a b j j') :
    j'.table maxLoc = (j.table maxLoc).moved a b := by
  have := C150_moved hmax hmax j.thr h.thr.1 j'.thr h.thr.2 j.radius j.maxLeds j.img j'.img h.size.1 h.size.2.1 h.size.2.2.1 h.size.2.2.2 h.same h.border
  unfold Step1Job.table LedTable.moved
  rw [h.radius, h.limit, this, List.map_map, List.map_map]
  refine List.map_congr_left fun l _ => ?_
  simp

theorem runHistory_moved {maxLoc : Image ℚ → ℕ × ℕ} (hmax : IsFirstMaxLoc maxLoc) (m : Metric D) (a b : ℕ) (hm : m.Translates a b) (P : ℤ × ℤ → Prop)
    (h h' : List ExtCmd) (hh : List.Forall₂ (MovedCmd a b) h h') (hP : ∀ c ∈ h, ∀ j, c.job = some j → ∀ l ∈ j.table maxLoc, P l.2) :
    ∀ d d', MovedDisk a b P d d' → MovedDisk a b P (runHistory maxLoc m d h) (runHistory maxLoc m d' h') := by
  induction hh with
  | nil => exact fun d d' hd => hd
  | @cons c c' h h' hc _ ih =>
    intro d d' hd
    unfold runHistory
    rw [List.foldl_cons, List.foldl_cons]
    refine ih (fun x hx => hP x (List.mem_cons_of_mem _ hx)) _ _ ?_
    have hPc := hP c List.mem_cons_self
    cases hc with
    | @step1 j j' hj =>
      simp only [ExtCmd.run]
      rw [movedJob_table hmax hj]
      exact (runStep1_moved a b P _ (hPc j rfl) d d' hd).1
    | step2 o => exact runStep2_moved m a b hm P o d d' hd
    | @steps12 j j' hj o =>
      simp only [ExtCmd.run]
      rw [movedJob_table hmax hj]
      exact runSteps12_moved m a b hm P o _ (hPc j rfl) d d' hd

/-! ### Step 3 -/

theorem sliceIdx_inside (n : ℕ) (r : ℤ) (R : ℕ) (h0 : (R : ℤ) ≤ r) (h1 : r + R ≤ n) : sliceIdx n (r - R) (r + R) = List.range' (r - R).toNat (2 * R) := by
  refine List.Perm.eq_of_pairwise (le := (· < ·)) (fun x y _ _ hx hy => absurd hx (Nat.lt_asymm hy)) ?_ (List.pairwise_lt_range' ..)
    ((List.perm_ext_iff_of_nodup (sliceIdx_nodup ..) (List.nodup_range' ..)).2 ?_)
  · exact List.pairwise_lt_range.filter _
  · intro k
    rw [mem_sliceIdx, List.mem_range'_1]
    unfold sliceBound
    rw [if_neg (by omega), if_neg (by omega)]
    omega

theorem range'_move (s n a : ℕ) : List.range' (s + a) n = (List.range' s n).map (· + a) := by
  rw [List.range'_eq_map_range, List.range'_eq_map_range, List.map_map]
  refine List.map_congr_left fun x _ => ?_
  simp only [Function.comp]
  omega

/-- The pixels of a search area are those of the moved search area. -/
theorem window_moved (a b R : ℕ) (photo photo' : Image ℚ) (hp : MovedPhoto a b photo photo') (p : ℤ × ℤ) (h : AreaInside a b R photo photo' p) :
    window photo' (p.1 + a) (p.2 + b) R = window photo p.1 p.2 R ∧ windowShape photo' (p.1 + a) (p.2 + b) R = windowShape photo p.1 p.2 R := by
  obtain ⟨h1, h2, h3, h4, h5, h6⟩ := h
  have s1 := sliceIdx_inside photo.h p.1 R h1 h3
  have s2 := sliceIdx_inside photo.w p.2 R h2 h4
  have s3 := sliceIdx_inside photo'.h (p.1 + a) R (by omega) (by omega)
  have s4 := sliceIdx_inside photo'.w (p.2 + b) R (by omega) (by omega)
  have e3 : (p.1 + (a : ℤ) - (R : ℤ)).toNat = (p.1 - R).toNat + a := by omega
  have e4 : (p.2 + (b : ℤ) - (R : ℤ)).toNat = (p.2 - R).toNat + b := by omega
  rw [e3, range'_move] at s3
  rw [e4, range'_move] at s4
  unfold window windowShape
  rw [s1, s2, s3, s4]
  constructor
  · rw [List.flatMap_map]
    refine List.flatMap_congr fun i hi => ?_
    rw [List.map_map]
    refine List.map_congr_left fun j hj => ?_
    rw [List.mem_range'_1] at hi hj
    exact hp i j (by omega) (by omega) (by omega) (by omega)
  · simp

theorem imageRows_moved (a b R : ℕ) (photo photo' : Image ℚ) (hp : MovedPhoto a b photo photo') (t : LedTable) (h : ∀ l ∈ t, AreaInside a b R photo photo' l.2)
    (fit : Bool) (skip : ℕ) (arrays : List (List ℕ)) :
    imageRows photo' ((LedTable.moved a b t).map (·.2)) R fit skip arrays = imageRows photo (t.map (·.2)) R fit skip arrays := by
  have hled : ∀ i, ledData photo' ((LedTable.moved a b t).map (·.2)) R fit i = ledData photo (t.map (·.2)) R fit i := by
    intro i
    unfold ledData LedTable.moved
    rw [List.map_map, List.getElem?_map, List.getElem?_map]
    cases e : t[i]? with
    | none => rfl
    | some l =>
      obtain ⟨w1, w2⟩ := window_moved a b R photo photo' hp l.2 (h l (List.mem_of_getElem? e))
      simp only [Option.map_some, Function.comp]
      unfold measure
      rw [w1, w2]
  have hrows : ∀ k ids, arrayRows photo' ((LedTable.moved a b t).map (·.2)) R fit skip k ids = arrayRows photo (t.map (·.2)) R fit skip k ids := by
    intro k ids
    unfold arrayRows
    simp only [hled]
  have key : ∀ (as : List (List ℕ)) (k : ℕ), imageRowsFrom photo' ((LedTable.moved a b t).map (·.2)) R fit skip k as =
      imageRowsFrom photo (t.map (·.2)) R fit skip k as := by
    intro as
    induction as with
    | nil => intro k; rfl
    | cons x xs ih =>
      intro k
      simp only [imageRowsFrom]
      rw [hrows, ih]
  exact key arrays 0

/-- **C150**, the whole extraction: whatever is done in steps 1 and 2, with photos moved by `a` rows and `b` columns (in which the LEDs keep their
distance from the border) step 3 ends as before, with the same numbers of LEDs and arrays and the same values. -/
theorem C150_values {maxLoc : Image ℚ → ℕ × ℕ} (hmax : IsFirstMaxLoc maxLoc) (m : Metric D) (a b : ℕ) (hm : m.Translates a b) (h h' : List ExtCmd)
    (hh : List.Forall₂ (MovedCmd a b) h h') (R : ℕ) (photo photo' : Image ℚ) (hp : MovedPhoto a b photo photo')
    (hin : ∀ c ∈ h, ∀ j, c.job = some j → ∀ l ∈ j.table maxLoc, AreaInside a b R photo photo' l.2) (o : Step3Options) (fit : Bool) (skip : ℕ) :
    step3Rows o photo' R fit skip (runHistory maxLoc m .empty h') = step3Rows o photo R fit skip (runHistory maxLoc m .empty h) := by
  have key := runHistory_moved hmax m a b hm (AreaInside a b R photo photo') h h' hh hin .empty .empty ⟨rfl, rfl, Or.inl ⟨rfl, rfl⟩⟩
  obtain ⟨k1, k2, k3⟩ := key
  unfold step3Rows step3Input
  rw [k2]
  rcases k3 with ⟨e1, e2⟩ | ⟨c, t, e1, e2, hP⟩
  · rw [e1, e2]
    rfl
  · rw [e1, e2]
    simp only [bind, Except.bind, loadTable_text]
    cases loadArrays o.numArrays o.groups (runHistory maxLoc m .empty h).index with
    | error e => rfl
    | ok arrays =>
      simp only
      have hlen : (LedTable.moved a b t).length = t.length := List.length_map _
      rw [hlen, imageRows_moved a b R photo photo' hp t hP]

/-- **C149**, the whole extraction: with photos in steps 1 and 2 that have the same bright pixels in the same order (another exposure), the files that
steps 1 and 2 leave behind are the same. -/
theorem C149_files {maxLoc : Image ℚ → ℕ × ℕ} (hmax : IsFirstMaxLoc maxLoc) (m : Metric D) (h h' : List ExtCmd) (hh : List.Forall₂ (fun c c' =>
      (∃ o, c = .step2 o ∧ c' = .step2 o) ∨ ∃ (j j' : Step1Job), 0 ≤ j.thr ∧ 0 ≤ j'.thr ∧ j'.radius = j.radius ∧ j'.maxLeds = j.maxLeds ∧ 0 < j.img.h ∧ 0 < j.img.w ∧
        j'.img.h = j.img.h ∧ j'.img.w = j.img.w ∧ (∀ p, LitAbove j.img j.thr p ↔ LitAbove j'.img j'.thr p) ∧
        (∀ p q, LitAbove j.img j.thr p → LitAbove j.img j.thr q → (j.img.px p.1 p.2 ≤ j.img.px q.1 q.2 ↔ j'.img.px p.1 p.2 ≤ j'.img.px q.1 q.2)) ∧
        ((c = .step1 j ∧ c' = .step1 j') ∨ ∃ o, c = .steps12 j o ∧ c' = .steps12 j' o)) h h') (d : ExtDisk) :
    runHistory maxLoc m d h' = runHistory maxLoc m d h := by
  induction hh generalizing d with
  | nil => rfl
  | @cons c c' h h' hc _ ih =>
    have hrun : c'.run maxLoc m d = c.run maxLoc m d := by
      rcases hc with ⟨o, rfl, rfl⟩ | ⟨j, j', t0, t0', e1, e2, h1, h2, h3, h4, hl, ho, hc⟩
      · rfl
      · have : j'.table maxLoc = j.table maxLoc := by
          unfold Step1Job.table
          rw [e1, e2, C149_order hmax hmax j.thr t0 j'.thr t0' j.radius j.maxLeds j.img j'.img h1 h2 h3 h4 hl ho]
        rcases hc with ⟨rfl, rfl⟩ | ⟨o, rfl, rfl⟩ <;> simp only [ExtCmd.run, this]
    unfold runHistory
    rw [List.foldl_cons, List.foldl_cons, hrun]
    exact ih _

/-! ### An example -/

/-- Two LEDs in the upper left part of a photo, and moved by three rows and one column. -/
def pairPhoto : Image ℚ := ⟨9, 9, fun i j => if i = 2 ∧ j = 2 then 9 else if i = 2 ∧ j = 5 then 7 else 1⟩
def movedPairPhoto : Image ℚ := ⟨9, 9, fun i j => if i = 5 ∧ j = 3 then 9 else if i = 5 ∧ j = 6 then 7 else 1⟩

/-- Squared distances of pixels. -/
def squareMetric : Metric ℤ := ⟨fun p q => (p.1 - q.1) ^ 2 + (p.2 - q.2) ^ 2, 4, 2⟩

theorem squareMetric_translates (a b : ℕ) : squareMetric.Translates a b := by
  intro p q
  simp only [squareMetric]
  ring

theorem pair_lit (p : ℕ × ℕ) : LitAbove pairPhoto 1 p ↔ p = (2, 2) ∨ p = (2, 5) := by
  obtain ⟨i, j⟩ := p
  constructor
  · rintro ⟨_, h⟩
    simp only [pairPhoto] at h
    split at h
    · rename_i e; rw [e.1, e.2]; exact Or.inl rfl
    · split at h
      · rename_i e; rw [e.1, e.2]; exact Or.inr rfl
      · exact absurd h (lt_irrefl _)
  · rintro (h | h) <;> rw [h] <;> exact ⟨⟨by decide, by decide⟩, by decide +kernel⟩

theorem movedPair_lit (p : ℕ × ℕ) : LitAbove movedPairPhoto 1 p ↔ p = (5, 3) ∨ p = (5, 6) := by
  obtain ⟨i, j⟩ := p
  constructor
  · rintro ⟨_, h⟩
    simp only [movedPairPhoto] at h
    split at h
    · rename_i e; rw [e.1, e.2]; exact Or.inl rfl
    · split at h
      · rename_i e; rw [e.1, e.2]; exact Or.inr rfl
      · exact absurd h (lt_irrefl _)
  · rintro (h | h) <;> rw [h] <;> exact ⟨⟨by decide, by decide⟩, by decide +kernel⟩

theorem pair_job : MovedJob 3 1 ⟨pairPhoto, 1, 2, 10⟩ ⟨movedPairPhoto, 1, 2, 10⟩ := by
  refine ⟨rfl, rfl, by norm_num, by decide, ⟨?_, ?_, ?_⟩, ?_⟩
  · intro p hp
    rcases (pair_lit p).1 hp with rfl | rfl
    · exact (movedPair_lit _).2 (Or.inl rfl)
    · exact (movedPair_lit _).2 (Or.inr rfl)
  · intro p hp
    rcases (movedPair_lit p).1 hp with rfl | rfl
    · exact ⟨(2, 2), (pair_lit _).2 (Or.inl rfl), rfl⟩
    · exact ⟨(2, 5), (pair_lit _).2 (Or.inr rfl), rfl⟩
  · intro p q hp hq
    rcases (pair_lit p).1 hp with rfl | rfl <;> rcases (pair_lit q).1 hq with rfl | rfl <;> decide +kernel
  · intro p hp
    rcases (pair_lit p).1 hp with rfl | rfl <;> decide

/-- Two LEDs of one array, measured in a moved photo: the values are those of the photo. -/
example : step3Rows ⟨1, none⟩ movedPairPhoto 2 false 0 (runHistory firstMaxLoc squareMetric .empty
      [.step1 ⟨movedPairPhoto, 1, 2, 10⟩, .step2 ⟨"0 1".toList, "None".toList, none⟩]) =
    .ok [(1, 0, ⟨22, 22 / 16, 7⟩), (0, 0, ⟨24, 24 / 16, 9⟩)] := by
  rw [C150_values isFirstMaxLoc_firstMaxLoc squareMetric 3 1 (squareMetric_translates 3 1)
    [.step1 ⟨pairPhoto, 1, 2, 10⟩, .step2 ⟨"0 1".toList, "None".toList, none⟩] _ (.cons (.step1 pair_job) (.cons (.step2 _) .nil)) 2 pairPhoto]
  · decide +kernel
  · intro i j h1 h2 h3 h4
    simp only [pairPhoto, movedPairPhoto]
    have e1 : (i + 3 = 5 ∧ j + 1 = 3) ↔ (i = 2 ∧ j = 2) := by omega
    have e2 : (i + 3 = 5 ∧ j + 1 = 6) ↔ (i = 2 ∧ j = 5) := by omega
    simp only [e1, e2]
  · intro c hc j hj
    rcases List.mem_cons.1 hc with rfl | hc
    · cases hj
      unfold AreaInside
      decide +kernel
    · rcases List.mem_cons.1 hc with rfl | hc
      · cases hj
      · cases hc

end Ledsa
