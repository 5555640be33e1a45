import Verif.Props.Displacement

/-! From the photos to the smoke: all steps of the program (C131). -/

namespace Ledsa

section
variable {D : Type} [LinearOrder D] [Add D] [Mul D]

/-! ### The files of the session -/

/-- The suffix of the index files the analysis reads, from the configuration. -/
def indexSuffix (groups : Option (List (List ℤ))) : Str := match groups with | none => [] | some _ => "_merge".toList

/-- A row of the coordinates file, as numbers with decimals. -/
def SameRow (r : CoordRow) (q : ℕ × List ℚ × ℚ × ℚ) : Prop :=
  q.1 = r.id ∧ q.2.1.map (Rat.cast : ℚ → ℝ) = [(r.pix.1 : ℝ), (r.pix.2 : ℝ), r.pos.1, r.pos.2.1, r.pos.2.2] ∧
    (q.2.2.1 : ℝ) = r.width ∧ (q.2.2.2 : ℝ) = r.height

/-- The numbers of the coordinates file are decimals. -/
theorem sameRow_exists (x : (ℕ × ℤ × ℤ) × ℝ × ℝ) (σ : ℤ → P3) :
    ∃ q, SameRow ⟨x.1.1, x.1.2, fixed6P (σ x.1.1), fixed6 x.2.1, fixed6 x.2.2⟩ q := by
  have h : ∀ y : ℝ, (((round (y * 10 ^ 6) : ℚ) / 10 ^ 6 : ℚ) : ℝ) = fixed6 y := by
    intro y
    unfold fixed6
    push_cast
    rfl
  refine ⟨(x.1.1, [(x.1.2.1 : ℚ), (x.1.2.2 : ℚ), (round ((σ x.1.1).1 * 10 ^ 6) : ℚ) / 10 ^ 6, (round ((σ x.1.1).2.1 * 10 ^ 6) : ℚ) / 10 ^ 6,
    (round ((σ x.1.1).2.2 * 10 ^ 6) : ℚ) / 10 ^ 6], (round (x.2.1 * 10 ^ 6) : ℚ) / 10 ^ 6, (round (x.2.2 * 10 ^ 6) : ℚ) / 10 ^ 6), rfl, ?_, h _, h _⟩
  simp only [List.map_cons, List.map_nil, h, Rat.cast_intCast]
  rfl

theorem coordinates_decimal (fit : List P3 → Plane) (num : ℤ) (edges : List (P3 × P3)) (d : ExtDisk) (rows : List CoordRow)
    (h : calculateCoordinates fit num edges d = .ok rows) : ∃ c, List.Forall₂ SameRow rows c := by
  unfold calculateCoordinates at h
  simp only [bind, Except.bind] at h
  split at h
  · cases h
  split at h
  · cases h
  split at h
  · cases h
  rename_i σ _
  split at h
  · cases h
  rename_i wh _
  injection h with h
  rw [← h]
  generalize List.zip _ wh = l
  clear h
  induction l with
  | nil => exact ⟨[], List.Forall₂.nil⟩
  | cons x l ih =>
    obtain ⟨c, hc⟩ := ih
    obtain ⟨q, hq⟩ := sameRow_exists x σ
    exact ⟨q :: c, List.Forall₂.cons hq hc⟩

theorem sameRows_ids {rows : List CoordRow} {c : List (ℕ × List ℚ × ℚ × ℚ)} (h : List.Forall₂ SameRow rows c) :
    c.map (·.1) = rows.map (·.id) ∧ ∀ r ∈ c, r.2.1.length = 5 := by
  induction h with
  | nil => simp
  | cons h _ ih =>
    obtain ⟨h1, h2, _⟩ := h
    have h5 := congrArg List.length h2
    simp only [List.length_map, List.length_cons, List.length_nil] at h5
    refine ⟨by simp only [List.map_cons, h1, ih.1], ?_⟩
    intro r hr
    rcases List.mem_cons.1 hr with rfl | hr
    · exact h5
    · exact ih.2 r hr

theorem mapM_ok_get {α β ε : Type} {f : α → Except ε β} : ∀ {l : List α} {r : List β}, l.mapM f = .ok r →
    ∀ (k : ℕ) (x : α) (y : β), l[k]? = some x → r[k]? = some y → f x = .ok y
  | [], r, _, k, x, y, hx, _ => by cases hx
  | a :: l, r, h, k, x, y, hx, hy => by
    rw [List.mapM_cons] at h
    simp only [bind, Except.bind] at h
    cases ha : f a with
    | error e => rw [ha] at h; cases h
    | ok b =>
      cases hl : l.mapM f with
      | error e => rw [ha, hl] at h; cases h
      | ok r' =>
        rw [ha, hl] at h
        injection h with h
        subst h
        cases k with
        | zero =>
          simp only [List.getElem?_cons_zero, Option.some.injEq] at hx hy
          rw [← hx, ← hy]
          exact ha
        | succ k =>
          simp only [List.getElem?_cons_succ] at hx hy
          exact mapM_ok_get hl k x y hx hy

/-- The index file of a wanted array. -/
theorem index_wanted (arrays : List (List ℕ)) (groups : Option (List (List ℤ))) (o : Step3Options) (h : FitOptions arrays groups o)
    (files : Str → Option Str) (k : ℕ) (hk : k < wantedCount arrays groups) :
    loadIndexFile (step2Files arrays groups files (indexFileName k (indexSuffix groups))) =
      .ok ((wantedLeds arrays groups k).reverse.map (Nat.cast : ℕ → ℤ)) := by
  have hl := loadArrays_wanted arrays groups o h files
  obtain ⟨h1, h2⟩ := h
  rw [h1] at hl
  unfold loadArrays at hl
  refine mapM_ok_get hl k k _ ?_ ?_
  · cases groups with
    | none =>
      simp only at h2 ⊢
      rw [List.getElem?_range]
      rw [h2]
      simpa [wantedCount] using hk
    | some gs => exact List.getElem?_range hk
  · rw [List.getElem?_map, List.getElem?_map, List.getElem?_range hk]
    rfl

theorem wanted_block (arrays : List (List ℕ)) (groups : Option (List (List ℤ))) (k x : ℕ) (h : x ∈ wantedLeds arrays groups k) :
    ∃ a, x ∈ blockOf arrays a := by
  unfold wantedLeds at h
  cases groups with
  | none => exact ⟨_, h⟩
  | some gs =>
    simp only [List.mem_flatMap] at h
    obtain ⟨a, _, ha⟩ := h
    split at ha
    · exact ⟨_, ha⟩
    · simp at ha

theorem flatten_member : ∀ (arrays : List (List ℕ)) (x : ℕ), x < arrays.flatten.length → ∃ a j old, IsMember arrays x a j old
  | [], x, h => by simp at h
  | l :: arrays, x, h => by
    by_cases hx : x < l.length
    · exact ⟨0, x, l[x], by simp, by simp [member, hx]⟩
    · rw [List.flatten_cons, List.length_append] at h
      obtain ⟨a, j, old, h1, h2⟩ := flatten_member arrays (x - l.length) (by omega)
      refine ⟨a + 1, j, old, ?_, by simpa [member] using h2⟩
      rw [List.take_succ_cons, List.flatten_cons, List.length_append]
      omega

/-- The result file of an image, after a history that ends with matched LEDs. -/
theorem step3File_matched (t : LedTable) (arrays : List (List ℕ)) (groups : Option (List (List ℤ))) (o : Step3Options)
    (h : FitOptions arrays groups o) (d : ExtDisk) (hd : Agrees d (.matched t arrays groups)) (infos : List Str) (root : Str) (ch R skip : ℕ)
    (photo : Image ℚ) (fit : Option (ℕ → FitValues)) (imgId : Str) :
    ∃ t', reorderSearchAreas t arrays = .ok t' ∧ (∀ i ∈ arrays.flatten, i < t.length) ∧ t.map (·.1) = List.range t.length ∧
      step3File o infos root ch R skip photo fit imgId d = if t'.length ≤ 1 then .error .indexError
        else step3Text infos root ch (t'.map (·.2)) R skip (((List.range (wantedCount arrays groups)).map (wantedLeds arrays groups)).map List.reverse)
          photo fit imgId := by
  obtain ⟨t', files, h1, h2, h3, h4, h5, h6, h7⟩ := hd
  refine ⟨t', h3, h5, h6, ?_⟩
  unfold step3File step3Input
  rw [h1, h7]
  simp only [bind, Except.bind, loadTable_text, loadArrays_wanted arrays groups o h]
  have : (((List.range (wantedCount arrays groups)).map (wantedLeds arrays groups)).map fun a => a.reverse.map (Nat.cast : ℕ → ℤ)).map
      (fun a => a.map Int.toNat) = ((List.range (wantedCount arrays groups)).map (wantedLeds arrays groups)).map List.reverse := by
    rw [List.map_map]
    refine List.map_congr_left fun a _ => ?_
    simp only [Function.comp, List.map_map]
    conv_rhs => rw [← List.map_id a.reverse]
    exact List.map_congr_left fun x _ => Int.toNat_natCast x
  rw [this]

/-! ### C131 -/

/-- Photos in which the matched LEDs can be measured: the squares of `R` pixels around the places where step 1 found them do not reach over
the upper or left border, and the pixel values are natural numbers. -/
structure Photographed (t : LedTable) (arrays : List (List ℕ)) (R : ℕ) (img : Image ℚ) : Prop where
  radius : 0 < R
  leds : ∀ old p, old ∈ arrays.flatten → (old, p) ∈ t → (R : ℤ) ≤ p.1 ∧ (R : ℤ) ≤ p.2 ∧ p.1 < img.h ∧ p.2 < img.w
  pixels : ∀ i j, i < img.h → j < img.w → ∃ v : ℕ, img.px i j = v

/-- LEDs at `truth`, at most `η` from the points where the camera sees them between the measured edge LEDs of their array; layers and camera
such that the rays are inside the domain with this error and the rounding of the file. -/
structure SurveyedLeds (a : ArrayAnalysis) (t : LedTable) (arrays : List (List ℕ)) (edges : List (P3 × P3)) (leds : List ℕ) (truth : ℕ → P3)
    (η : ℝ) : Prop where
  layers : 3 ≤ a.layers
  domain : a.lo < a.hi
  camera : a.lo ≤ a.cam.2.2 ∧ a.cam.2.2 ≤ a.hi
  seen : ∀ k ak T B f l pf pl, arrays[k]? = some ak → edges[k]? = some (T, B) → ak.head? = some f → ak.getLast? = some l →
    (f, pf) ∈ t → (l, pl) ∈ t →
    ∀ x ∈ leds, ∀ i old p s, IsMember arrays x k i old → (old, p) ∈ t → IsFraction (realPix pf) (realPix pl) (realPix p) s →
      euclid (truth x) (lerp3 T B s) ≤ η
  inside : ∀ x ∈ leds, a.lo + (η + 1 / 10 ^ 6) ≤ (truth x).2.2 ∧ (truth x).2.2 + (η + 1 / 10 ^ 6) < a.hi
  apart : ∀ x ∈ leds, η + 1 / 10 ^ 6 < euclid a.cam (truth x)

/-- The whole program up to the analysis: positions and values of the LEDs of an array as the analysis reads them, with the
value as it is rounded in the file. -/
theorem C131_measured_exact (maxLoc : Image ℚ → ℕ × ℕ) (m : Metric D) (h : List ExtCmd) (t : LedTable) (arrays : List (List ℕ))
    (groups : Option (List (List ℤ))) (hs : Stage.ofHistory maxLoc m h = .matched t arrays groups) (o : Step3Options)
    (ho : FitOptions arrays groups o) (fit : List P3 → Plane) (edges : List (P3 × P3)) (he : arrays.length ≤ edges.length)
    (hp : EndsMeasured t arrays arrays.length)
    (hdis : ((List.range (wantedCount arrays groups)).map (wantedLeds arrays groups)).flatten.Nodup)
    (h4 : 4 ≤ ((List.range (wantedCount arrays groups)).map (wantedLeds arrays groups)).flatten.length)
    (w : HdfWorld) (ch n : ℕ) (hcount : w.count w.cwd = .ok (n : ℤ)) (hn : 0 < n) (hw : w.cache = none)
    (infos : List InfoRow) (hi : GoodInfos infos) (hlen : n ≤ infos.length) (root : Str) (hroot : '\n' ∉ root)
    (R : ℕ) (img : ℕ → Image ℚ) (hph : ∀ i, Photographed t arrays R (img i)) (files : ℕ → Option Str)
    (hf : ∀ i, 1 ≤ i → i ≤ n → files i =
      (step3File o (infoFile infos) root ch R 0 (img i) none (natStr i) (runHistory maxLoc m .empty h)).toOption)
    (k : ℕ) (hk : k < wantedCount arrays groups) (hasc : (wantedLeds arrays groups k).Pairwise (· < ·)) :
    wantedLeds arrays groups k ≠ [] ∧
    ∃ rows, calculateCoordinates fit arrays.length edges (runHistory maxLoc m .empty h) = .ok rows ∧
      loadIndexFile ((runHistory maxLoc m .empty h).index (indexFileName k (indexSuffix groups))) =
        .ok ((wantedLeds arrays groups k).reverse.map (Nat.cast : ℕ → ℤ)) ∧
      (∀ (a0 : ArrayAnalysis) (truth : ℕ → P3) (η : ℝ), SurveyedLeds a0 t arrays edges (wantedLeds arrays groups k) truth η →
        ∃ pos : ℕ → P3, ∀ x ∈ wantedLeds arrays groups k, (rows.map (·.pos))[x]? = some (pos x) ∧ euclid (truth x) (pos x) ≤ η + 1 / 10 ^ 6) ∧
      ∀ (c : Option (List (ℕ × List ℚ × ℚ × ℚ))), w.coord w.cwd = c.map asCoord → (∀ c', c = some c' → List.Forall₂ SameRow rows c') →
      ∃ f u, textFrame w ch files = .ok f ∧ frameData f "sum_col_val" k = .ok (tableOf (firstImgs n) (wantedLeds arrays groups k) u) ∧
      ∀ i, 1 ≤ i → i ≤ n → ∀ x ∈ wantedLeds arrays groups k, ∃ a j old p, IsMember arrays x a j old ∧ (old, p) ∈ t ∧
        u i x = ((sciVal (∑ q ∈ area (img i) p.1 p.2 R, (img i).px q.1 q.2) : ℚ) : ℝ) ∧
        Within (1 / 19999) (u i x) ((∑ q ∈ area (img i) p.1 p.2 R, (img i).px q.1 q.2 : ℚ) : ℝ) := by
  have hd := history_agrees maxLoc m h
  rw [hs] at hd
  set W := (List.range (wantedCount arrays groups)).map (wantedLeds arrays groups) with hW
  set leds := wantedLeds arrays groups k with hleds
  -- wanted LEDs are members of arrays
  have hmemW : ∀ x ∈ W.flatten, ∃ a j old, IsMember arrays x a j old := by
    intro x hx
    obtain ⟨b, hb, hxb⟩ := List.mem_flatten.1 hx
    obtain ⟨k', _, rfl⟩ := List.mem_map.1 hb
    obtain ⟨a, ha⟩ := wanted_block arrays groups k' x hxb
    obtain ⟨j, old, hj⟩ := block_member arrays a x ha
    exact ⟨a, j, old, hj⟩
  have hleW : ∀ x ∈ leds, x ∈ W.flatten := fun x hx => List.mem_flatten.2 ⟨leds, List.mem_map.2 ⟨k, List.mem_range.2 hk, rfl⟩, hx⟩
  have hlt : ∀ x a j old, IsMember arrays x a j old → x < arrays.flatten.length := by
    intro x a j old hm
    have := flatten_offset arrays a j old hm.2
    rw [← hm.1] at this
    exact (List.getElem?_eq_some_iff.1 this).1
  have h4' : 4 ≤ arrays.flatten.length := by
    have hsub : W.flatten ⊆ List.range arrays.flatten.length := by
      intro x hx
      obtain ⟨a, j, old, hm⟩ := hmemW x hx
      exact List.mem_range.2 (hlt x a j old hm)
    have := (hdis.subperm hsub).length_le
    rw [List.length_range] at this
    omega
  obtain ⟨rows, c1, c2, c3⟩ := C126_positions_partial maxLoc m h t arrays groups hs fit edges he h4' hp
  have hidx : loadIndexFile ((runHistory maxLoc m .empty h).index (indexFileName k (indexSuffix groups))) =
      .ok (leds.reverse.map (Nat.cast : ℕ → ℤ)) := by
    obtain ⟨t', fs, a1, a2, a3, a4, a5, a6, a7⟩ := hd
    rw [a7]
    exact index_wanted arrays groups o ho fs k hk
  have hnone : leds ≠ [] := by
    rw [hleds]
    cases hgr : groups with
    | none =>
      rw [hgr] at hk
      obtain ⟨ak, f, l, pf, pl, e1, e2, _⟩ := hp k hk
      obtain ⟨x, x1, _⟩ := isMember_head arrays k ak e1 f e2
      intro hc
      have hc' : blockOf arrays k = [] := hc
      rw [hc'] at x1
      cases x1
    | some gs =>
      rw [hgr] at ho hk
      exact ho.2 k hk
  refine ⟨hnone, rows, c1, hidx, ?_, ?_⟩
  · intro a0 truth η hsv
    set pos : ℕ → P3 := fun x => ((rows[x]?).map (·.pos)).getD (0, 0, 0) with hposdef
    have hrow : ∀ x ∈ leds, (rows.map (·.pos))[x]? = some (pos x) ∧ euclid (truth x) (pos x) ≤ η + 1 / 10 ^ 6 := by
      intro x hx
      obtain ⟨a, ha⟩ := wanted_block arrays groups k x hx
      obtain ⟨j, old, hm⟩ := block_member arrays a x ha
      have hal : a < arrays.length := by
        by_contra hc
        rw [blockOf_beyond arrays a (by omega)] at ha
        cases ha
      obtain ⟨ak, f, l, pf, pl, e1, e2, e3, e4, e5, e6⟩ := hp a hal
      obtain ⟨T, B, hTB⟩ : ∃ T B, edges[a]? = some (T, B) := ⟨_, _, List.getElem?_eq_getElem (by omega)⟩
      obtain ⟨row, r1, r2, r3, r4⟩ := c3 x a j old hm
      obtain ⟨s, s1, s2, _⟩ := r4 ak T B f l pf pl e1 hTB e2 e3 e4 e5
      have hpx : pos x = row.pos := by
        rw [hposdef]
        simp only [r1, Option.map_some, Option.getD_some]
      constructor
      · rw [List.getElem?_map, r1, hpx]
        rfl
      · rw [hpx]
        have t1 := hsv.seen a ak T B f l pf pl e1 hTB e2 e3 e4 e5 x hx j old row.pix s hm r3 s1
        have t2 := near6_euclid _ _ s2
        exact (euclid_triangle _ _ _).trans (add_le_add t1 t2)
    exact ⟨pos, hrow⟩
  intro c hc hcr
  -- the table of the session
  obtain ⟨t', g1, g2, g3, _⟩ := step3Rows_matched t arrays groups o ho _ hd (img 0) R false 0
  obtain ⟨t'', r1, r2, r3, _⟩ := C19_renumbering t g3 arrays g2
  have ht : t'' = t' := by rw [g1] at r1; injection r1 with r1; exact r1.symm
  subst ht
  have harea : ∀ x a j old p, IsMember arrays x a j old → (old, p) ∈ t → (t''.map (·.2))[x]? = some p := by
    intro x a j old p hm hp
    obtain ⟨q, q1, q2⟩ := renumbered_position t g3 arrays g2 t'' g1 x a j old hm
    rw [q2, row_unique t g3 old q p q1 hp]
  have hmember : ∀ x a j old, IsMember arrays x a j old → ∃ p, (old, p) ∈ t ∧ old ∈ arrays.flatten := by
    intro x a j old hm
    obtain ⟨q, q1, _⟩ := renumbered_position t g3 arrays g2 t'' g1 x a j old hm
    refine ⟨q, q1, ?_⟩
    exact List.mem_of_getElem? (flatten_offset arrays a j old hm.2)
  have hf' : ∀ i, 1 ≤ i → i ≤ n → files i =
      (step3Text (infoFile infos) root ch (t''.map (·.2)) R 0 (W.map List.reverse) (img i) none (natStr i)).toOption := by
    intro i h1 h2
    obtain ⟨t3, k1, _, _, k4⟩ := step3File_matched t arrays groups o ho _ hd (infoFile infos) root ch R 0 (img i) none (natStr i)
    have : t3 = t'' := by rw [g1] at k1; injection k1 with k1; exact k1.symm
    subst this
    rw [hf i h1 h2, k4, if_neg (by omega)]
  have hflat : ∀ x, x ∈ (W.map List.reverse).flatten ↔ x ∈ W.flatten := by
    intro x
    simp only [List.mem_flatten, List.mem_map]
    constructor
    · rintro ⟨l, ⟨a, ha, rfl⟩, hx⟩
      exact ⟨a, ha, List.mem_reverse.1 hx⟩
    · rintro ⟨l, hl, hx⟩
      exact ⟨l.reverse, ⟨l, hl, rfl⟩, List.mem_reverse.2 hx⟩
  have hrevlen : (W.map List.reverse).flatten.length = W.flatten.length := by
    simp only [List.length_flatten, List.map_map]
    congr 1
    exact List.map_congr_left fun a _ => List.length_reverse
  have hrevnd : (W.map List.reverse).flatten.Nodup := by
    rw [List.nodup_flatten] at hdis ⊢
    refine ⟨?_, ?_⟩
    · intro l hl
      obtain ⟨a, ha, rfl⟩ := List.mem_map.1 hl
      exact List.nodup_reverse.2 (hdis.1 a ha)
    · rw [List.pairwise_map]
      refine hdis.2.imp ?_
      intro a b hab x hx hx'
      exact hab (List.mem_reverse.1 hx) (List.mem_reverse.1 hx')
  have hgood : ∀ i, GoodPhoto (img i) (t''.map (·.2)) R 0 (W.map List.reverse) := by
    intro i
    refine ⟨(hph i).radius, ?_, (hph i).pixels⟩
    intro x hx
    have hx' : x ∈ W.flatten := by
      rw [mem_ledsOf] at hx
      obtain ⟨⟨a, ha, hxa⟩, _⟩ := hx
      exact (hflat x).1 (List.mem_flatten.2 ⟨a, ha, hxa⟩)
    obtain ⟨a, j, old, hm⟩ := hmemW x hx'
    obtain ⟨p, p1, p2⟩ := hmember x a j old hm
    obtain ⟨b1, b2, b3, b4⟩ := (hph i).leds old p p2 p1
    exact ⟨p.1, p.2, harea x a j old p hm p1, b1, b2, b3, b4⟩
  have hids : rows.map (·.id) = List.range arrays.flatten.length := by
    apply List.ext_getElem?
    intro x
    by_cases hx : x < arrays.flatten.length
    · obtain ⟨a, j, old, hm⟩ : ∃ a j old, IsMember arrays x a j old := flatten_member arrays x hx
      obtain ⟨row, e1, e2, _⟩ := c3 x a j old hm
      rw [List.getElem?_map, e1, List.getElem?_range hx, Option.map_some, e2]
    · rw [List.getElem?_eq_none (by rw [List.length_map, c2]; exact Nat.le_of_not_lt hx),
        List.getElem?_eq_none (by rw [List.length_range]; exact Nat.le_of_not_lt hx)]
  have hrange : (List.range arrays.flatten.length).Pairwise (· < ·) := List.pairwise_lt_range
  have hc2 : ∀ c', c = some c' → 2 ≤ c'.length ∧ ∃ m, ∀ r ∈ c', r.2.1.length = m := by
    intro c' hc'
    have hsame := hcr c' hc'
    refine ⟨?_, 5, (sameRows_ids hsame).2⟩
    rw [← hsame.length_eq, c2]
    omega
  have hgc : ∀ c', c = some c' → (c'.map (·.1)).Pairwise (· < ·) ∧ ∀ i ∈ (W.map List.reverse).flatten, i ∈ c'.map (·.1) := by
    intro c' hc'
    rw [(sameRows_ids (hcr c' hc')).1, hids]
    refine ⟨hrange, ?_⟩
    intro x hx
    obtain ⟨a, j, old, hm⟩ := hmemW x ((hflat x).1 hx)
    exact List.mem_range.2 (hlt x a j old hm)
  have hWk : (W.map List.reverse)[k]? = some leds.reverse := by
    rw [List.getElem?_map, hW, List.getElem?_map, List.getElem?_range hk]
    rfl
  obtain ⟨f, u, f1, f2, f3⟩ := photos_table_exact w ch n hcount hn hw infos hi hlen root hroot (t''.map (·.2)) R (W.map List.reverse) hrevnd
    (by rw [hrevlen]; omega) img hgood files hf' c hc hc2 hgc k leds hasc hnone leds.reverse hWk (fun l => by simp)
  refine ⟨f, u, f1, f2, fun i h1 h2 x hx => ?_⟩
  obtain ⟨a, j, old, hm⟩ := hmemW x (hleW x hx)
  obtain ⟨p, p1, _⟩ := hmember x a j old hm
  refine ⟨a, j, old, p, hm, p1, ?_⟩
  have := f3 i h1 h2 x hx
  unfold lightOf at this
  rwa [harea x a j old p hm p1] at this

/-- The same without the rounded value. -/
theorem C131_measured (maxLoc : Image ℚ → ℕ × ℕ) (m : Metric D) (h : List ExtCmd) (t : LedTable) (arrays : List (List ℕ))
    (groups : Option (List (List ℤ))) (hs : Stage.ofHistory maxLoc m h = .matched t arrays groups) (o : Step3Options)
    (ho : FitOptions arrays groups o) (fit : List P3 → Plane) (edges : List (P3 × P3)) (he : arrays.length ≤ edges.length)
    (hp : EndsMeasured t arrays arrays.length)
    (hdis : ((List.range (wantedCount arrays groups)).map (wantedLeds arrays groups)).flatten.Nodup)
    (h4 : 4 ≤ ((List.range (wantedCount arrays groups)).map (wantedLeds arrays groups)).flatten.length)
    (w : HdfWorld) (ch n : ℕ) (hcount : w.count w.cwd = .ok (n : ℤ)) (hn : 0 < n) (hw : w.cache = none)
    (infos : List InfoRow) (hi : GoodInfos infos) (hlen : n ≤ infos.length) (root : Str) (hroot : '\n' ∉ root)
    (R : ℕ) (img : ℕ → Image ℚ) (hph : ∀ i, Photographed t arrays R (img i)) (files : ℕ → Option Str)
    (hf : ∀ i, 1 ≤ i → i ≤ n → files i =
      (step3File o (infoFile infos) root ch R 0 (img i) none (natStr i) (runHistory maxLoc m .empty h)).toOption)
    (k : ℕ) (hk : k < wantedCount arrays groups) (hasc : (wantedLeds arrays groups k).Pairwise (· < ·)) :
    wantedLeds arrays groups k ≠ [] ∧
    ∃ rows, calculateCoordinates fit arrays.length edges (runHistory maxLoc m .empty h) = .ok rows ∧
      loadIndexFile ((runHistory maxLoc m .empty h).index (indexFileName k (indexSuffix groups))) =
        .ok ((wantedLeds arrays groups k).reverse.map (Nat.cast : ℕ → ℤ)) ∧
      (∀ (a0 : ArrayAnalysis) (truth : ℕ → P3) (η : ℝ), SurveyedLeds a0 t arrays edges (wantedLeds arrays groups k) truth η →
        ∃ pos : ℕ → P3, ∀ x ∈ wantedLeds arrays groups k, (rows.map (·.pos))[x]? = some (pos x) ∧ euclid (truth x) (pos x) ≤ η + 1 / 10 ^ 6) ∧
      ∀ (c : Option (List (ℕ × List ℚ × ℚ × ℚ))), w.coord w.cwd = c.map asCoord → (∀ c', c = some c' → List.Forall₂ SameRow rows c') →
      ∃ f u, textFrame w ch files = .ok f ∧ frameData f "sum_col_val" k = .ok (tableOf (firstImgs n) (wantedLeds arrays groups k) u) ∧
      ∀ i, 1 ≤ i → i ≤ n → ∀ x ∈ wantedLeds arrays groups k, ∃ a j old p, IsMember arrays x a j old ∧ (old, p) ∈ t ∧
        Within (1 / 19999) (u i x) ((∑ q ∈ area (img i) p.1 p.2 R, (img i).px q.1 q.2 : ℚ) : ℝ) := by
  obtain ⟨h1, rows, h2, h3, h4, h5⟩ := C131_measured_exact maxLoc m h t arrays groups hs o ho fit edges he hp hdis h4 w ch n hcount hn hw infos hi
    hlen root hroot R img hph files hf k hk hasc
  refine ⟨h1, rows, h2, h3, h4, fun c hc hcr => ?_⟩
  obtain ⟨f, u, f1, f2, f3⟩ := h5 c hc hcr
  refine ⟨f, u, f1, f2, fun i i1 i2 x hx => ?_⟩
  obtain ⟨a, j, old, p, p1, p2, _, p3⟩ := f3 i i1 i2 x hx
  exact ⟨a, j, old, p, p1, p2, p3⟩

/-- **C131.** The whole program: any history of steps 1 and 2 that ends with matched LEDs, step 3 for all photos, the coordinates command
(before or after the table is made), the table of the result files, and the analysis of an array, merged or not. The found coefficients
reproduce the optical depths of the smoke along the lines of sight, with an error bounded by that of the light in the photos around the
pixels where step 1 found the LEDs (a factor `exp γ`), the distance `η` between the LEDs and the straight lines of their arrays, the
rounding in the files, and the smoothing. -/
theorem C131_photos_to_smoke (maxLoc : Image ℚ → ℕ × ℕ) (m : Metric D) (h : List ExtCmd) (t : LedTable) (arrays : List (List ℕ))
    (groups : Option (List (List ℤ))) (hs : Stage.ofHistory maxLoc m h = .matched t arrays groups) (o : Step3Options)
    (ho : FitOptions arrays groups o) (fit : List P3 → Plane) (edges : List (P3 × P3)) (he : arrays.length ≤ edges.length)
    (hp : EndsMeasured t arrays arrays.length)
    (hdis : ((List.range (wantedCount arrays groups)).map (wantedLeds arrays groups)).flatten.Nodup)
    (h4 : 4 ≤ ((List.range (wantedCount arrays groups)).map (wantedLeds arrays groups)).flatten.length)
    (w : HdfWorld) (ch n : ℕ) (hcount : w.count w.cwd = .ok (n : ℤ)) (hn : 0 < n) (hw : w.cache = none)
    (infos : List InfoRow) (hi : GoodInfos infos) (hlen : n ≤ infos.length) (root : Str) (hroot : '\n' ∉ root)
    (R : ℕ) (img : ℕ → Image ℚ) (hph : ∀ i, Photographed t arrays R (img i)) (files : ℕ → Option Str)
    (hf : ∀ i, 1 ≤ i → i ≤ n → files i =
      (step3File o (infoFile infos) root ch R 0 (img i) none (natStr i) (runHistory maxLoc m .empty h)).toOption)
    (k : ℕ) (hk : k < wantedCount arrays groups) (hasc : (wantedLeds arrays groups k).Pairwise (· < ·)) :
    ∃ rows ids, calculateCoordinates fit arrays.length edges (runHistory maxLoc m .empty h) = .ok rows ∧
      loadIndexFile ((runHistory maxLoc m .empty h).index (indexFileName k (indexSuffix groups))) = .ok (ids.map (Nat.cast : ℕ → ℤ)) ∧
      ∀ (c : Option (List (ℕ × List ℚ × ℚ × ℚ))), w.coord w.cwd = c.map asCoord → (∀ c', c = some c' → List.Forall₂ SameRow rows c') →
      ∃ f, textFrame w ch files = .ok f ∧
      ∀ (a0 : ArrayAnalysis) (truth : ℕ → P3) (η : ℝ), SurveyedLeds a0 t arrays edges (wantedLeds arrays groups k) truth η → 0 ≤ η → 0 ≤ a0.lam →
      ∃ pos : ℕ → P3, (∀ x ∈ wantedLeds arrays groups k, (rows.map (·.pos))[x]? = some (pos x) ∧ euclid (truth x) (pos x) ≤ η + 1 / 10 ^ 6) ∧
      ∀ (v : ℕ → ℕ → ℝ), (∀ i x a j old p, IsMember arrays x a j old → (old, p) ∈ t →
          v i x = ((∑ q ∈ area (img i) p.1 p.2 R, (img i).px q.1 q.2 : ℚ) : ℝ)) →
      ∀ (γ : ℝ) (emit : ℕ → ℝ) (smoke : ℕ → Fin a0.layers → ℝ) (S L δ : ℝ),
        NoisyLight a0 (wantedLeds arrays groups k) truth n v γ emit smoke → 0 < δ → CameraClear a0.lo a0.hi a0.layers δ a0.cam.2.2 →
        (∀ i, 1 ≤ i → i ≤ n → ∀ j, smoke i j ≤ S) → (∀ x ∈ wantedLeds arrays groups k, euclid a0.cam (truth x) ≤ L) →
        (∀ i, 1 ≤ i → i ≤ n → ∀ x ∈ wantedLeds arrays groups k,
          lineDepth a0.cam (truth x) a0.lo a0.hi (smoke i) + displacementError S L δ (η + 1 / 10 ^ 6) ≤ 23) →
      ∀ r, (a0.withFiles k ids rows).ResultOf ((a0.withFiles k ids rows).inputOf (frameData f "sum_col_val" k)) r →
        ∃ found : ℕ → Fin a0.layers → ℝ, r = .ok ((firstImgs n).map found) ∧ ∀ i, 1 ≤ i → i ≤ n → (∀ j, 0 ≤ found i j) ∧
          ((wantedLeds arrays groups k).map fun x =>
              (lineDepth a0.cam (pos x) a0.lo a0.hi (found i) - lineDepth a0.cam (pos x) a0.lo a0.hi (smoke i)) ^ 2).sum +
            a0.lam * bending (fun j => found i j - smoke i j) ≤
            (wantedLeds arrays groups k).length * (2 * (γ + displacementError S L δ (η + 1 / 10 ^ 6)) + 2 / 19999) ^ 2 +
              a0.lam * bending (smoke i) := by
  obtain ⟨hnone, rows, c1, c2, c3, c4⟩ := C131_measured maxLoc m h t arrays groups hs o ho fit edges he hp hdis h4 w ch n hcount hn hw infos hi hlen
    root hroot R img hph files hf k hk hasc
  refine ⟨rows, _, c1, c2, ?_⟩
  intro c hc hcr
  obtain ⟨f, u, f1, f2, f3⟩ := c4 c hc hcr
  refine ⟨f, f1, ?_⟩
  intro a0 truth η hsv hη hlam
  obtain ⟨pos, hrow⟩ := c3 a0 truth η hsv
  refine ⟨pos, hrow, ?_⟩
  intro v hv γ emit smoke S L δ hl hδ hcam hS hL hthin r hr
  have hseen : SeenArray (a0.withFiles k (wantedLeds arrays groups k).reverse rows) (wantedLeds arrays groups k) pos := by
    refine ⟨rfl, hasc, hnone, fun x hx => (hrow x hx).1, hsv.layers, hsv.domain, ?_⟩
    intro x hx
    have hr := (hrow x hx).2
    have hz := height_le_euclid (truth x) (pos x)
    have hin := hsv.inside x hx
    have hap := hsv.apart x hx
    rw [abs_le] at hz
    refine ⟨?_, hsv.camera, ⟨?_, ?_⟩, ?_⟩
    · rintro hc
      have hc' : a0.cam = pos x := hc
      rw [hc'] at hap
      have hsym : euclid (pos x) (truth x) = euclid (truth x) (pos x) := by
        unfold euclid
        congr 1
        ring
      linarith
    · show a0.lo ≤ _
      linarith [hz.1, hz.2, hin.1]
    · show _ ≤ a0.hi
      linarith [hz.1, hz.2, hin.2]
    · rintro ⟨_, hc⟩
      have hc' : (pos x).2.2 = a0.hi := hc
      linarith [hz.1, hz.2, hin.2]
  have hnoisy := hl.displaced (pos := pos) hsv.domain hδ (by positivity : (0 : ℝ) ≤ η + 1 / 10 ^ 6) hcam hS hL (fun x hx => (hrow x hx).2) hthin
  have hnoisy' : NoisyLight (a0.withFiles k (wantedLeds arrays groups k).reverse rows) (wantedLeds arrays groups k) pos n u
      (γ + displacementError S L δ (η + 1 / 10 ^ 6) + 1 / 19999) emit smoke := by
    refine ⟨hnoisy.emits, ?_, hnoisy.clear, hnoisy.reference, hnoisy.nonneg, hnoisy.thin⟩
    intro i h1 h2 l hl
    obtain ⟨a, j, old, p, hm, hp, hw⟩ := f3 i h1 h2 l hl
    rw [← hv i l a j old p hm hp] at hw
    exact (hnoisy.light i h1 h2 l hl).trans hw
  rw [f2] at hr
  have := noisy_result _ _ pos hseen hlam n u _ emit smoke hnoisy' r hr
  have e : 2 * (γ + displacementError S L δ (η + 1 / 10 ^ 6) + 1 / 19999) =
      2 * (γ + displacementError S L δ (η + 1 / 10 ^ 6)) + 2 / 19999 := by ring
  rwa [e] at this

end

/-! A case of C131: the column of five LEDs, seen from 5 m, without smoke in the first photo and with half of the light in the second. -/

/-- The two photos of the column. -/
def columnPhoto (i : ℕ) : Image ℚ :=
  ⟨17, 7, fun r c => if c = 3 ∧ (r = 2 ∨ r = 5 ∨ r = 8 ∨ r = 11 ∨ r = 14) then (if i = 2 then 500 else 1000) else 0⟩

/-- Smoke that takes half of the light on 5 m, in the second photo. -/
noncomputable def columnSmoke (i : ℕ) : Fin 3 → ℝ := if i = 2 then fun _ => Real.log 2 / 5 else fun _ => 0

theorem column_depth (c : ℝ) (x : ℕ) (hx : x ≤ 4) : lineDepth (5, 0, 2) (0, 0, 4 - (x : ℝ)) (-1) 5 (fun _ : Fin 3 => c) =
    euclid (5, 0, 2) (0, 0, 4 - (x : ℝ)) * c := by
  have hx' : (x : ℝ) ≤ 4 := by exact_mod_cast hx
  have h0 : (0 : ℝ) ≤ x := by positivity
  unfold lineDepth
  congr 1
  have : ∀ t ∈ Set.uIcc (0 : ℝ) 1, extinctionAt (-1) 5 (fun _ : Fin 3 => c) (2 + t * (4 - (x : ℝ) - 2)) = c := by
    intro t ht
    rw [Set.uIcc_of_le zero_le_one, Set.mem_Icc] at ht
    have hz : 0 ≤ 2 + t * (4 - (x : ℝ) - 2) ∧ 2 + t * (4 - (x : ℝ) - 2) ≤ 4 := by
      constructor <;> nlinarith
    generalize 2 + t * (4 - (x : ℝ) - 2) = z at hz
    by_cases h1 : z < 1
    · exact extinctionAt_slice (-1) 5 (by norm_num) (fun _ : Fin 3 => c) 0 z (by constructor <;> norm_num <;> linarith)
    · by_cases h2 : z < 3
      · exact extinctionAt_slice (-1) 5 (by norm_num) (fun _ : Fin 3 => c) 1 z (by constructor <;> norm_num <;> linarith)
      · exact extinctionAt_slice (-1) 5 (by norm_num) (fun _ : Fin 3 => c) 2 z (by constructor <;> norm_num <;> linarith)
  rw [intervalIntegral.integral_congr this]
  simp

theorem column_distance (x : ℕ) (hx : x ≤ 4) : 5 ≤ euclid (5, 0, 2) (0, 0, 4 - (x : ℝ)) ∧ euclid (5, 0, 2) (0, 0, 4 - (x : ℝ)) ≤ 27 / 5 := by
  have hx' : (x : ℝ) ≤ 4 := by exact_mod_cast hx
  have h0 : (0 : ℝ) ≤ x := by positivity
  unfold euclid
  constructor
  · apply Real.le_sqrt_of_sq_le
    nlinarith [sq_nonneg ((2 : ℝ) - (4 - x))]
  · apply Real.sqrt_le_iff.2
    constructor
    · norm_num
    · nlinarith

theorem column_light (i x : ℕ) (p : ℤ × ℤ) (h : (x, p) ∈ columnTable) :
    (∑ q ∈ area (columnPhoto i) p.1 p.2 1, (columnPhoto i).px q.1 q.2 : ℚ) = if i = 2 then 500 else 1000 := by
  have hp : p = (2, 3) ∨ p = (5, 3) ∨ p = (8, 3) ∨ p = (11, 3) ∨ p = (14, 3) := by
    simp only [columnTable, List.mem_cons, Prod.mk.injEq, List.not_mem_nil, or_false] at h
    rcases h with ⟨_, rfl⟩ | ⟨_, rfl⟩ | ⟨_, rfl⟩ | ⟨_, rfl⟩ | ⟨_, rfl⟩ <;> simp
  by_cases hi : i = 2
  · subst hi
    rcases hp with rfl | rfl | rfl | rfl | rfl <;> decide +kernel
  · have : columnPhoto i = columnPhoto 1 := by simp [columnPhoto, hi]
    rw [this, if_neg hi]
    rcases hp with rfl | rfl | rfl | rfl | rfl <;> decide +kernel

theorem column_noisy : NoisyLight columnAnalysis [0, 1, 2, 3, 4] (fun x => (0, 0, 4 - x)) 2 (fun i _ => if i = 2 then 500 else 1000) (1 / 10)
    (fun _ => 1000) columnSmoke := by
  have hle : ∀ x ∈ [0, 1, 2, 3, 4], x ≤ 4 := by decide
  have hlog0 : 0 < Real.log 2 := Real.log_pos (by norm_num)
  have hlog1 : Real.log 2 ≤ 1 := by
    rw [Real.log_le_iff_le_exp (by norm_num)]
    linarith [Real.add_one_le_exp (1 : ℝ)]
  refine ⟨fun _ _ => by norm_num, ?_, ?_, ⟨1, le_refl _, by norm_num, by simp [columnAnalysis, RefChoice.selects]⟩, ?_, ?_⟩
  · intro i _ _ x hx
    show Within (1 / 10) _ (1000 * Real.exp (-lineDepth (5, 0, 2) (0, 0, 4 - (x : ℝ)) (-1) 5 (columnSmoke i)))
    by_cases hi : i = 2
    · subst hi
      have hs : columnSmoke 2 = fun _ => Real.log 2 / 5 := by simp [columnSmoke]
      rw [hs, column_depth _ _ (hle x hx)]
      obtain ⟨d1, d2⟩ := column_distance x (hle x hx)
      generalize euclid (5, 0, 2) (0, 0, 4 - (x : ℝ)) = d at d1 d2
      have h500 : (500 : ℝ) = 1000 * Real.exp (-Real.log 2) := by
        rw [Real.exp_neg, Real.exp_log (by norm_num)]
        norm_num
      simp only [if_true]
      unfold Within
      rw [h500, mul_assoc, mul_assoc, ← Real.exp_add, ← Real.exp_add]
      constructor
      · refine mul_le_mul_of_nonneg_left (Real.exp_le_exp.2 ?_) (by norm_num)
        nlinarith
      · refine mul_le_mul_of_nonneg_left (Real.exp_le_exp.2 ?_) (by norm_num)
        nlinarith
    · have hs : columnSmoke i = fun _ => 0 := by simp [columnSmoke, hi]
      rw [hs, lineDepth_zero]
      simp only [if_neg hi, neg_zero, Real.exp_zero, mul_one]
      constructor
      · exact mul_le_of_le_one_right (by norm_num) (Real.exp_le_one_iff.2 (by norm_num))
      · exact le_mul_of_one_le_right (by norm_num) (Real.one_le_exp (by norm_num))
  · intro i h1 h2 hs
    simp only [columnAnalysis, RefChoice.selects, decide_eq_true_eq] at hs
    have : i = 1 := by omega
    subst this
    rfl
  · intro i _ _ k
    unfold columnSmoke
    split
    · positivity
    · exact le_refl _
  · intro i _ _ x hx
    show lineDepth (5, 0, 2) (0, 0, 4 - (x : ℝ)) (-1) 5 (columnSmoke i) ≤ 23
    obtain ⟨d1, d2⟩ := column_distance x (hle x hx)
    unfold columnSmoke
    split
    · rw [column_depth _ _ (hle x hx)]
      nlinarith
    · rw [column_depth _ _ (hle x hx)]
      norm_num

theorem column_member (x a j old : ℕ) (h : IsMember [[0, 1, 2, 3, 4]] x a j old) : a = 0 ∧ x = j ∧ j = old ∧ j ≤ 4 := by
  obtain ⟨h1, h2⟩ := h
  unfold member at h2
  match a with
  | 0 =>
    have hold : ([0, 1, 2, 3, 4] : List ℕ)[j]? = some old := h2
    have hj : j < 5 := by
      by_contra hc
      rw [List.getElem?_eq_none (by simpa using hc)] at hold
      cases hold
    refine ⟨rfl, by simpa using h1, ?_, by omega⟩
    interval_cases j <;> simpa using hold
  | a + 1 => simp at h2

/-- All steps for the two photos of the column: the error of the optical depths is that of the light, 10 %, and a little. -/
theorem column_whole : ∃ rows ids f, calculateCoordinates (fun _ => ⟨0, 1, 0⟩) 1 [((0, 0, 4), (0, 0, 0))]
      (runHistory firstMaxLoc pairMetric .empty [.steps12 columnJob (columnOptions "None")]) = .ok rows ∧
    textFrame stripDir 0 (fun i => (step3File ⟨1, none⟩ (infoFile stripInfos) "exp".toList 0 1 0 (columnPhoto i) none (natStr i)
      (runHistory firstMaxLoc pairMetric .empty [.steps12 columnJob (columnOptions "None")])).toOption) = .ok f ∧
    ∀ r, (columnAnalysis.withFiles 0 ids rows).ResultOf ((columnAnalysis.withFiles 0 ids rows).inputOf (frameData f "sum_col_val" 0)) r →
      ∃ (pos : ℕ → P3) (found : ℕ → Fin 3 → ℝ), (∀ x : ℕ, x ≤ 4 → euclid (0, 0, 4 - (x : ℝ)) (pos x) ≤ 1 / 10 ^ 6) ∧ r = .ok [found 1, found 2] ∧
        ∀ x : ℕ, x ≤ 4 → |lineDepth (5, 0, 2) (pos x) (-1) 5 (found 2) - lineDepth (5, 0, 2) (pos x) (-1) 5 (columnSmoke 2)| ≤ 1 / 2 := by
  have hb : wantedLeds [[0, 1, 2, 3, 4]] none 0 = [0, 1, 2, 3, 4] := rfl
  have hgi : GoodInfos stripInfos := by
    refine ⟨?_, by unfold CsvSafe; decide, by decide⟩
    intro k hk
    match k, hk with
    | 0, _ => rfl
    | 1, _ => rfl
  have hends : EndsMeasured columnTable [[0, 1, 2, 3, 4]] 1 := by
    intro k hk
    have : k = 0 := by omega
    subst this
    exact ⟨[0, 1, 2, 3, 4], 0, 4, (2, 3), (14, 3), rfl, rfl, rfl, by decide, by decide, by decide⟩
  have hphoto : ∀ i, Photographed columnTable [[0, 1, 2, 3, 4]] 1 (columnPhoto i) := by
    intro i
    refine ⟨by decide, ?_, ?_⟩
    · intro old p _ h
      simp only [columnTable, List.mem_cons, Prod.mk.injEq, List.not_mem_nil, or_false] at h
      rcases h with ⟨_, rfl⟩ | ⟨_, rfl⟩ | ⟨_, rfl⟩ | ⟨_, rfl⟩ | ⟨_, rfl⟩ <;> simp [columnPhoto]
    · intro r c _ _
      simp only [columnPhoto]
      split
      · split
        · exact ⟨500, by norm_num⟩
        · exact ⟨1000, by norm_num⟩
      · exact ⟨0, by norm_num⟩
  obtain ⟨rows, ids, c1, c2, c3⟩ := C131_photos_to_smoke firstMaxLoc pairMetric _ _ _ _ (column_stage "None" _ (by simp) column_all) ⟨1, none⟩
    ⟨rfl, rfl⟩ (fun _ => ⟨0, 1, 0⟩) [((0, 0, 4), (0, 0, 0))] (by simp) hends (by decide) (by decide) stripDir 0 2 rfl (by norm_num) rfl stripInfos
    hgi (by decide) "exp".toList (by decide +kernel) 1 columnPhoto hphoto _ (fun i _ _ => rfl) 0 (by decide) (by decide)
  obtain ⟨f, f1, f2⟩ := c3 none rfl (by simp)
  refine ⟨rows, ids, f, c1, f1, ?_⟩
  have hs := column_surveyed
  have hsv : SurveyedLeds columnAnalysis columnTable [[0, 1, 2, 3, 4]] [((0, 0, 4), (0, 0, 0))] (wantedLeds [[0, 1, 2, 3, 4]] none 0)
      (fun x => (0, 0, 4 - x)) 0 := by
    refine ⟨hs.layers, hs.domain, hs.camera, ?_, hs.inside, hs.apart⟩
    intro k ak T B f l pf pl e1 e2 e3 e4 e5 e6 x _ i old p s hm hp hf
    obtain ⟨rfl, _⟩ := column_member x k i old hm
    obtain ⟨rfl, rfl⟩ : (0, 0, 4) = T ∧ (0, 0, 0) = B := by simpa using e2
    exact hs.seen ak f l pf pl e1 e3 e4 e5 e6 x i old p s hm hp hf
  obtain ⟨pos, p1, p2⟩ := f2 columnAnalysis _ 0 hsv le_rfl (by unfold columnAnalysis; norm_num)
  intro r hr
  have hlog0 : 0 < Real.log 2 := Real.log_pos (by norm_num)
  have hlog1 : Real.log 2 ≤ 1 := by
    rw [Real.log_le_iff_le_exp (by norm_num)]
    linarith [Real.add_one_le_exp (1 : ℝ)]
  have hle : ∀ x ∈ [0, 1, 2, 3, 4], x ≤ 4 := by decide
  obtain ⟨found, e, hfound⟩ := p2 (fun i _ => if i = 2 then 500 else 1000) (by
      intro i x a j old p hm hp
      rw [column_light i old p hp]
      split <;> norm_num) (1 / 10) (fun _ => 1000) columnSmoke (1 / 5) (27 / 5) 1 column_noisy (by norm_num)
      ⟨1, by decide, by unfold columnAnalysis; norm_num, by unfold columnAnalysis; norm_num⟩
      (by
        intro i _ _ j
        unfold columnSmoke
        split
        · linarith
        · norm_num)
      (fun x hx => (column_distance x (hle x hx)).2)
      (by
        intro i _ _ x hx
        show lineDepth (5, 0, 2) (0, 0, 4 - (x : ℝ)) (-1) 5 (columnSmoke i) + _ ≤ 23
        obtain ⟨d1, d2⟩ := column_distance x (hle x hx)
        have : lineDepth (5, 0, 2) (0, 0, 4 - (x : ℝ)) (-1) 5 (columnSmoke i) ≤ 2 := by
          unfold columnSmoke
          split
          · rw [column_depth _ _ (hle x hx)]
            nlinarith
          · rw [column_depth _ _ (hle x hx)]
            norm_num
        unfold displacementError
        norm_num
        linarith) r hr
  refine ⟨pos, found, ?_, by rw [e]; rfl, ?_⟩
  · intro x hx
    have := (p1 x (by rw [hb]; simp; omega)).2
    simpa using this
  · obtain ⟨_, hb2⟩ := hfound 2 (by norm_num) le_rfl
    rw [hb] at hb2
    have hsm : columnSmoke 2 = fun _ => Real.log 2 / 5 := by simp [columnSmoke]
    have hbend : bending (n := 3) (columnSmoke 2) = 0 := by
      rw [hsm]
      exact (bending_eq_zero _).2 ⟨Real.log 2 / 5, 0, fun _ => by simp⟩
    have hnn := bending_nonneg (n := 3) fun k => found 2 k - columnSmoke 2 k
    have hb3 : ([0, 1, 2, 3, 4].map fun x => (lineDepth (5, 0, 2) (pos x) (-1) 5 (found 2) -
        lineDepth (5, 0, 2) (pos x) (-1) 5 (columnSmoke 2)) ^ 2).sum + 1 * bending (n := 3) (fun k => found 2 k - columnSmoke 2 k) ≤
        ((5 : ℕ) : ℝ) * (2 * (1 / 10 + displacementError (1 / 5) (27 / 5) 1 (0 + 1 / 10 ^ 6)) + 2 / 19999) ^ 2 +
          1 * bending (n := 3) (columnSmoke 2) := hb2
    rw [hbend] at hb3
    unfold displacementError at hb3
    intro x hx
    have hone : (lineDepth (5, 0, 2) (pos x) (-1) 5 (found 2) - lineDepth (5, 0, 2) (pos x) (-1) 5 (columnSmoke 2)) ^ 2 ≤ (1 / 2) ^ 2 := by
      have hx5 : x ∈ [0, 1, 2, 3, 4] := by simp; omega
      have := List.single_le_sum (l := [0, 1, 2, 3, 4].map fun x => (lineDepth (5, 0, 2) (pos x) (-1) 5 (found 2) -
        lineDepth (5, 0, 2) (pos x) (-1) 5 (columnSmoke 2)) ^ 2) (by
          intro y hy
          obtain ⟨z, _, rfl⟩ := List.mem_map.1 hy
          exact sq_nonneg _) _ (List.mem_map_of_mem hx5)
      refine this.trans ?_
      norm_num at hb3 ⊢
      linarith
    exact abs_le_of_sq_le_sq hone (by norm_num)

end Ledsa
