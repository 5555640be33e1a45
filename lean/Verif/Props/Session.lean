import Verif.Model.Session
import Verif.Props.Extraction
import Verif.Props.Step1
import Verif.Props.Alignment
/-
C108-C110: steps 1, 2 and 3 in sessions of their own, in any order.
-/
namespace Ledsa

variable {D : Type} [LinearOrder D] [Add D] [Mul D]

/-! ### Specification: what the user has done so far -/

/-- The state of the work: nothing done, LEDs detected, LEDs detected and matched (with the merge groups), or the last detection or
matching gave no LED. -/
inductive Stage
  | fresh
  | detected (t : LedTable)
  | matched (t : LedTable) (arrays : List (List ℕ)) (groups : Option (List (List ℤ)))
  | spoilt

/-- After a detection. -/
def Stage.detect (t : LedTable) : Stage := if t = [] then .spoilt else .detected t

/-- After a matching of detected LEDs. A failed matching changes nothing, and matched LEDs are not matched again. -/
def Stage.match (m : Metric D) (o : Step2Options) : Stage → Stage
  | .detected t => match arraysOf m o t with
    | .error _ => .detected t
    | .ok arrays => if arrays.flatten = [] then .spoilt else .matched t arrays o.groups
  | s => s

/-- After an invocation. (Step 2 alone does not work for a single LED.) -/
def Stage.after (maxLoc : Image ℚ → ℕ × ℕ) (m : Metric D) (s : Stage) : ExtCmd → Stage
  | .step1 j => .detect (j.table maxLoc)
  | .step2 o => match s with
    | .detected t => if t.length ≤ 1 then .detected t else Stage.match m o (.detected t)
    | s => s
  | .steps12 j o => Stage.match m o (.detect (j.table maxLoc))

/-- After a history. -/
def Stage.ofHistory (maxLoc : Image ℚ → ℕ × ℕ) (m : Metric D) (h : List ExtCmd) : Stage := h.foldl (Stage.after maxLoc m) .fresh

/-- The numbers of the LEDs of array `a` after step 2: consecutive, array after array. -/
def blockOf (arrays : List (List ℕ)) (a : ℕ) : List ℕ := List.range' (arrays.take a).flatten.length ((arrays[a]?).getD []).length

/-- The numbers of the LEDs of the `k`-th array step 3 should measure. -/
def wantedLeds (arrays : List (List ℕ)) (groups : Option (List (List ℤ))) (k : ℕ) : List ℕ :=
  match groups with
  | none => blockOf arrays k
  | some gs => ((gs[k]?).getD []).flatMap fun (a : ℤ) => if 0 ≤ a then blockOf arrays a.toNat else []

/-- The options of step 3 fit to those of step 2: the number of arrays is right, or no merge group is empty. -/
def FitOptions (arrays : List (List ℕ)) (groups : Option (List (List ℤ))) (o : Step3Options) : Prop :=
  o.groups = groups ∧ match groups with
    | none => o.numArrays = arrays.length
    | some gs => ∀ k, k < gs.length → wantedLeds arrays (some gs) k ≠ []

/-! ### Tables -/

theorem loadTable_text (b : Bool) (t : LedTable) : loadTable (tableText b t) = .ok t := by
  unfold loadTable tableText
  rw [C106_areas]
  simp only [Except.map, List.map_map]
  congr 1
  conv_rhs => rw [← List.map_id t]
  refine List.map_congr_left fun l _ => ?_
  simp

theorem jobTable_ids (maxLoc : Image ℚ → ℕ × ℕ) (j : Step1Job) :
    (j.table maxLoc).map (·.1) = List.range (j.table maxLoc).length := by
  unfold Step1Job.table findSearchAreas
  rw [List.map_map, List.length_map, List.range_eq_range']
  exact searchLoop_ids maxLoc j.thr j.radius j.maxLeds 0 j.img _

theorem blockOf_reorder (arrays : List (List ℕ)) : ∀ s a,
    ((reorderIndicesFrom s arrays)[a]?).getD [] = List.range' (s + (arrays.take a).flatten.length) ((arrays[a]?).getD []).length := by
  induction arrays with
  | nil => intro s a; simp [reorderIndicesFrom]
  | cons x xs ih =>
    intro s a
    cases a with
    | zero => simp [reorderIndicesFrom]
    | succ a =>
      simp only [reorderIndicesFrom, List.getElem?_cons_succ, List.take_succ_cons, List.flatten_cons, List.length_append]
      rw [ih, Nat.add_assoc]

theorem reorderIndices_get (arrays : List (List ℕ)) (a : ℕ) : ((reorderIndices arrays)[a]?).getD [] = blockOf arrays a := by
  unfold reorderIndices blockOf
  rw [blockOf_reorder, Nat.zero_add]

theorem flatten_offset {α : Type} (arrays : List (List α)) : ∀ a i x, (arrays[a]?).bind (fun l => l[i]?) = some x →
    arrays.flatten[(arrays.take a).flatten.length + i]? = some x := by
  induction arrays with
  | nil => intro a i x h; simp at h
  | cons l ls ih =>
    intro a i x h
    cases a with
    | zero =>
      simp only [List.getElem?_cons_zero, Option.bind_some] at h
      obtain ⟨hl, _⟩ := List.getElem?_eq_some_iff.1 h
      simp only [List.take_zero, List.flatten_nil, List.length_nil, Nat.zero_add, List.flatten_cons]
      rw [List.getElem?_append_left hl, h]
    | succ a =>
      simp only [List.getElem?_cons_succ] at h
      simp only [List.take_succ_cons, List.flatten_cons, List.length_append]
      rw [List.getElem?_append_right (by omega), ← ih a i x h]
      congr 1
      omega

/-! ### The files agree with the stage -/

/-- The files of a directory in which the work is at a stage. -/
def Agrees (d : ExtDisk) : Stage → Prop
  | .fresh => d.areas = none ∧ d.flag = false ∧ ∀ n, d.index n = none
  | .detected t => d.areas = some (tableText false t) ∧ d.flag = false ∧ t ≠ [] ∧ t.map (·.1) = List.range t.length
  | .matched t arrays groups => ∃ t' files, d.areas = some (tableText true t') ∧ d.flag = true ∧ reorderSearchAreas t arrays = .ok t' ∧
      t' ≠ [] ∧ (∀ i ∈ arrays.flatten, i < t.length) ∧ t.map (·.1) = List.range t.length ∧ d.index = step2Files arrays groups files
  | .spoilt => ∃ b, d.areas = some (tableText b [])

theorem arraysOf_in (m : Metric D) (o : Step2Options) (t : LedTable) (hids : t.map (·.1) = List.range t.length)
    (arrays : List (List ℕ)) (h : arraysOf m o t = .ok arrays) : ∀ i ∈ arrays.flatten, i < t.length := by
  unfold arraysOf at h
  cases e : matchLeds m.dist m.neighbours m.weight (edgeIndices o.edges) o.ignore t with
  | error x => rw [e] at h; cases h
  | ok r =>
    rw [e] at h
    simp only [Except.map, Except.ok.injEq] at h
    intro i hi
    obtain ⟨p, hp⟩ := (C14_at_most_one_array m.dist m.neighbours m.weight _ o.ignore t (by rw [hids]; exact List.nodup_range) r.1 r.2 e).2 i
      (h ▸ hi)
    have : i ∈ t.map (·.1) := List.mem_map_of_mem hp
    rw [hids] at this
    exact List.mem_range.1 this

theorem matchTable_agrees (m : Metric D) (o : Step2Options) (t : LedTable) (d : ExtDisk) (h : Agrees d (.detected t)) :
    Agrees (matchTable m o t d).1 (Stage.match m o (.detected t)) := by
  obtain ⟨h1, h2, h3, h4⟩ := h
  unfold matchTable Stage.match
  simp only
  cases e : arraysOf m o t with
  | error x =>
    simp only
    exact ⟨h1, h2, h3, h4⟩
  | ok arrays =>
    have hin := arraysOf_in m o t h4 arrays e
    obtain ⟨t', r1, _, r3, _⟩ := C19_renumbering t h4 arrays hin
    simp only [r1]
    by_cases ht : t' = []
    · have : arrays.flatten = [] := by
        apply List.eq_nil_of_length_eq_zero
        rw [← r3, ht]; rfl
      rw [if_pos ht, if_pos this]
      exact ⟨true, by rw [ht]⟩
    · have : arrays.flatten ≠ [] := by
        intro h0
        apply ht
        apply List.eq_nil_of_length_eq_zero
        rw [r3, h0]; rfl
      rw [if_neg ht, if_neg this]
      exact ⟨t', d.index, rfl, rfl, r1, ht, hin, h4, rfl⟩

theorem runStep1_agrees (maxLoc : Image ℚ → ℕ × ℕ) (j : Step1Job) (d : ExtDisk) :
    Agrees (runStep1 (j.table maxLoc) d).1 (.detect (j.table maxLoc)) := by
  unfold runStep1 Stage.detect
  simp only
  by_cases h : j.table maxLoc = []
  · rw [if_pos h, if_pos h]; exact ⟨false, by rw [h]⟩
  · rw [if_neg h, if_neg h]; exact ⟨rfl, rfl, h, jobTable_ids maxLoc j⟩

theorem run_agrees (maxLoc : Image ℚ → ℕ × ℕ) (m : Metric D) (s : Stage) (d : ExtDisk) (h : Agrees d s) (c : ExtCmd) :
    Agrees (c.run maxLoc m d) (s.after maxLoc m c) := by
  cases c with
  | step1 j => exact runStep1_agrees maxLoc j d
  | step2 o =>
    unfold ExtCmd.run Stage.after runStep2
    cases s with
    | fresh =>
      obtain ⟨h1, h2, h3⟩ := h
      rw [h1, h2]
      exact ⟨h1, h2, h3⟩
    | detected t =>
      have h' := h
      obtain ⟨h1, h2, h3, h4⟩ := h
      rw [h1, h2]
      simp only [loadTable_text, Bool.false_eq_true, if_false]
      by_cases hl : t.length ≤ 1
      · rw [if_pos hl, if_pos hl]; exact h'
      · rw [if_neg hl, if_neg hl]; exact matchTable_agrees m o t d h'
    | matched t arrays groups =>
      have h' := h
      obtain ⟨t', files, h1, h2, _⟩ := h
      rw [h2]
      exact h'
    | spoilt =>
      obtain ⟨b, h1⟩ := h
      simp only
      by_cases hf : d.flag
      · rw [if_pos hf]; exact ⟨b, h1⟩
      · rw [if_neg hf, h1]
        simp only [loadTable_text, List.length_nil, Nat.zero_le, if_true]
        exact ⟨b, h1⟩
  | steps12 j o =>
    unfold ExtCmd.run Stage.after runSteps12
    simp only
    have h1 := runStep1_agrees maxLoc j d
    by_cases ht : j.table maxLoc = []
    · have e : runStep1 (j.table maxLoc) d = ({ d with areas := some (tableText false (j.table maxLoc)) }, .error .indexError) := by
        unfold runStep1; simp only; rw [if_pos ht]
      rw [e] at h1 ⊢
      simp only
      unfold Stage.detect at h1 ⊢
      rw [if_pos ht] at h1 ⊢
      exact h1
    · have e : runStep1 (j.table maxLoc) d = ({ d with areas := some (tableText false (j.table maxLoc)), flag := false }, .ok ()) := by
        unfold runStep1; simp only; rw [if_neg ht]
      rw [e] at h1 ⊢
      simp only [Bool.false_eq_true, if_false]
      unfold Stage.detect at h1 ⊢
      rw [if_neg ht] at h1 ⊢
      exact matchTable_agrees m o _ _ h1

/-- The files after a history agree with what the user has done. -/
theorem history_agrees (maxLoc : Image ℚ → ℕ × ℕ) (m : Metric D) (h : List ExtCmd) :
    Agrees (runHistory maxLoc m .empty h) (Stage.ofHistory maxLoc m h) := by
  unfold runHistory Stage.ofHistory
  have : ∀ (d : ExtDisk) (s : Stage), Agrees d s → Agrees (h.foldl (ExtCmd.run maxLoc m) d) (h.foldl (Stage.after maxLoc m) s) := by
    induction h with
    | nil => intro d s hd; exact hd
    | cons c cs ih => intro d s hd; exact ih _ _ (run_agrees maxLoc m s d hd c)
  exact this _ _ ⟨rfl, rfl, fun _ => rfl⟩

/-! ### C108 -/

/-- The number of arrays step 3 should measure. -/
def wantedCount (arrays : List (List ℕ)) (groups : Option (List (List ℤ))) : ℕ :=
  match groups with
  | none => arrays.length
  | some gs => gs.length

theorem blockOf_beyond (arrays : List (List ℕ)) (a : ℕ) (h : arrays.length ≤ a) : blockOf arrays a = [] := by
  unfold blockOf
  rw [List.getElem?_eq_none h]
  rfl

theorem loadArrays_wanted (arrays : List (List ℕ)) (groups : Option (List (List ℤ))) (o : Step3Options)
    (h : FitOptions arrays groups o) (files : Str → Option Str) :
    loadArrays o.numArrays o.groups (step2Files arrays groups files) =
      .ok (((List.range (wantedCount arrays groups)).map (wantedLeds arrays groups)).map fun a => a.reverse.map (Nat.cast : ℕ → ℤ)) := by
  obtain ⟨h1, h2⟩ := h
  rw [h1]
  cases groups with
  | none =>
    simp only at h2
    rw [h2, C105_loaded_partial]
    congr 2
    apply List.ext_getElem?
    intro k
    simp only [wantedCount, List.getElem?_map]
    by_cases hk : k < arrays.length
    · rw [List.getElem?_range hk, Option.map_some, show wantedLeds arrays none k = blockOf arrays k from rfl, ← reorderIndices_get, List.getElem?_eq_getElem (by rw [reorderIndices_length]; exact hk)]
      rfl
    · rw [List.getElem?_eq_none (by rw [reorderIndices_length]; omega), List.getElem?_eq_none (by simp; omega)]
      rfl
  | some gs =>
    simp only at h2
    have hin : ∀ g : List ℤ, (g.flatMap fun (i : ℤ) =>
        if 0 ≤ i ∧ i < (reorderIndices arrays).length then ((reorderIndices arrays)[i.toNat]?).getD [] else []) =
        g.flatMap fun (a : ℤ) => if 0 ≤ a then blockOf arrays a.toNat else [] := by
      intro g
      congr 1
      funext a
      rw [reorderIndices_length, reorderIndices_get]
      by_cases ha : 0 ≤ a
      · by_cases hb : a < arrays.length
        · rw [if_pos ⟨ha, hb⟩, if_pos ha]
        · rw [if_neg (fun h => hb h.2), if_pos ha, blockOf_beyond arrays _ (by omega)]
      · rw [if_neg (fun h => ha h.1), if_neg ha]
    have hm : mergeArrays (reorderIndices arrays) gs = (List.range gs.length).map (wantedLeds arrays (some gs)) := by
      have e : (gs.map fun g => g.flatMap fun (a : ℤ) => if 0 ≤ a then blockOf arrays a.toNat else []) =
          (List.range gs.length).map (wantedLeds arrays (some gs)) := by
        apply List.ext_getElem?
        intro k
        simp only [List.getElem?_map]
        by_cases hk : k < gs.length
        · rw [List.getElem?_range hk, List.getElem?_eq_getElem hk]
          simp [hk, wantedLeds]
        · rw [List.getElem?_eq_none (by omega), List.getElem?_eq_none (by simp; omega)]
          rfl
      unfold mergeArrays
      simp only [hin]
      rw [e, List.filter_eq_self.2]
      intro x hx
      obtain ⟨k, hk, rfl⟩ := List.mem_map.1 hx
      simpa using h2 k (List.mem_range.1 hk)
    rw [C105_merged_partial arrays gs o.numArrays files (by rw [hm]; simp), hm]
    rfl

theorem step3Rows_matched (t : LedTable) (arrays : List (List ℕ)) (groups : Option (List (List ℤ))) (o : Step3Options)
    (h : FitOptions arrays groups o) (d : ExtDisk) (hd : Agrees d (.matched t arrays groups)) (photo : Image ℚ) (R : ℕ) (fit : Bool) (skip : ℕ) :
    ∃ t', reorderSearchAreas t arrays = .ok t' ∧ (∀ i ∈ arrays.flatten, i < t.length) ∧ t.map (·.1) = List.range t.length ∧
      step3Rows o photo R fit skip d = if t'.length ≤ 1 then .error .indexError
        else imageRows photo (t'.map (·.2)) R fit skip (((List.range (wantedCount arrays groups)).map (wantedLeds arrays groups)).map List.reverse) := by
  obtain ⟨t', files, h1, h2, h3, h4, h5, h6, h7⟩ := hd
  refine ⟨t', h3, h5, h6, ?_⟩
  unfold step3Rows step3Input
  rw [h1, h7]
  simp only [bind, Except.bind, loadTable_text, loadArrays_wanted arrays groups o h]
  have : (((List.range (wantedCount arrays groups)).map (wantedLeds arrays groups)).map fun a => a.reverse.map (Nat.cast : ℕ → ℤ)).map
      (fun a => a.map Int.toNat) = ((List.range (wantedCount arrays groups)).map (wantedLeds arrays groups)).map List.reverse := by
    rw [List.map_map]
    refine List.map_congr_left fun a _ => ?_
    simp only [Function.comp, List.map_map]
    conv_rhs => rw [← List.map_id a.reverse]
    exact List.map_congr_left fun x _ => Int.toNat_natCast x
  rw [this]

theorem mem_blockOf (arrays : List (List ℕ)) (a x : ℕ) (h : x ∈ blockOf arrays a) :
    ∃ i old, x = (arrays.take a).flatten.length + i ∧ member arrays a i = some old := by
  unfold blockOf at h
  rw [List.mem_range'] at h
  obtain ⟨i, hi, rfl⟩ := h
  unfold member
  cases e : arrays[a]? with
  | none => rw [e] at hi; simp at hi
  | some l =>
    rw [e] at hi
    simp only [Option.getD_some] at hi
    exact ⟨i, l[i], by rw [Nat.one_mul], by simp [hi]⟩

/-- LED number `x` of the matched arrays is member `i` of array `a`. -/
def IsMember (arrays : List (List ℕ)) (x a i old : ℕ) : Prop :=
  x = (arrays.take a).flatten.length + i ∧ member arrays a i = some old

theorem renumbered_position (t : LedTable) (hids : t.map (·.1) = List.range t.length) (arrays : List (List ℕ))
    (hin : ∀ i ∈ arrays.flatten, i < t.length) (t' : LedTable) (ht : reorderSearchAreas t arrays = .ok t') (x a i old : ℕ)
    (h : IsMember arrays x a i old) : ∃ p, (old, p) ∈ t ∧ (t'.map (·.2))[x]? = some p := by
  obtain ⟨h1, h2⟩ := h
  obtain ⟨rows, r1, r2, r3⟩ := mapM_getElem t arrays.flatten hin
  have hf : arrays.flatten[x]? = some old := by rw [h1]; exact flatten_offset arrays a i old h2
  have hlt : old < t.length := hin old (List.mem_of_getElem? hf)
  obtain ⟨p, hp⟩ := getElem?_of_ids hids hlt
  have hr := r3 x old hf
  rw [hp] at hr
  unfold reorderSearchAreas at ht
  rw [r1] at ht
  simp only [Except.ok.injEq] at ht
  refine ⟨p, List.mem_of_getElem? hp, ?_⟩
  rw [← ht, List.getElem?_map, List.getElem?_map, List.getElem?_zipIdx, hr]
  rfl

/-- What is measured at the position of an LED, if the photo can be measured there. -/
theorem ledData_measure (photo : Image ℚ) (areas : List (ℤ × ℤ)) (R : ℕ) (fit : Bool) (x : ℕ) (p : ℤ × ℤ) (v : Measured ℚ)
    (hp : areas[x]? = some p) (h : ledData photo areas R fit x = .ok v) : measure photo p.1 p.2 R = .ok v := by
  unfold ledData at h
  rw [hp] at h
  simp only at h
  split at h
  · split at h
    · cases h
    · exact h
  · exact h

/-- **C108.** Whatever was done before, if the LEDs were matched after the last detection, and the options fit, the rows of step 3
are those of the matched arrays: the right LEDs in the right array, each measured at the pixel where step 1 has found the LED
that was matched. -/
theorem C108_measured (maxLoc : Image ℚ → ℕ × ℕ) (m : Metric D) (h : List ExtCmd) (t : LedTable) (arrays : List (List ℕ))
    (groups : Option (List (List ℤ))) (hs : Stage.ofHistory maxLoc m h = .matched t arrays groups) (o : Step3Options)
    (ho : FitOptions arrays groups o) (photo : Image ℚ) (R : ℕ) (fit : Bool) (skip : ℕ) (rows : List (ℕ × ℕ × Measured ℚ))
    (hr : step3Rows o photo R fit skip (runHistory maxLoc m .empty h) = .ok rows) :
    (∀ k, k < wantedCount arrays groups →
      (rows.filter (fun x => x.2.1 = k)).map (·.1) = (wantedLeds arrays groups k).reverse.filter (fun i => (skip + 1) ∣ i)) ∧
    ∀ x ∈ rows, x.2.1 < wantedCount arrays groups ∧ ∃ a i old p, IsMember arrays x.1 a i old ∧ (old, p) ∈ t ∧
      measure photo p.1 p.2 R = .ok x.2.2 := by
  have hd := history_agrees maxLoc m h
  rw [hs] at hd
  obtain ⟨t', h1, h2, h3, h4⟩ := step3Rows_matched t arrays groups o ho _ hd photo R fit skip
  rw [h4] at hr
  split at hr
  · cases hr
  rename_i hl
  obtain ⟨c1, c2, c3⟩ := C27_rows photo (t'.map (·.2)) R fit skip _ rows hr
  have hget : ∀ k, ((((List.range (wantedCount arrays groups)).map (wantedLeds arrays groups)).map List.reverse)[k]?).getD [] =
      if k < wantedCount arrays groups then (wantedLeds arrays groups k).reverse else [] := by
    intro k
    rw [List.getElem?_map, List.getElem?_map]
    by_cases hk : k < wantedCount arrays groups
    · rw [List.getElem?_range hk, if_pos hk]; rfl
    · rw [List.getElem?_eq_none (by simp; omega), if_neg hk]; rfl
  refine ⟨fun k hk => by rw [c1 k, hget, if_pos hk], ?_⟩
  intro x hx
  have hmem : x.1 ∈ (rows.filter (fun y => y.2.1 = x.2.1)).map (·.1) := List.mem_map_of_mem (by simp [hx])
  rw [c1, hget] at hmem
  split at hmem
  · rename_i hk
    refine ⟨hk, ?_⟩
    rw [List.mem_filter, List.mem_reverse] at hmem
    have hb : ∃ a, x.1 ∈ blockOf arrays a := by
      have := hmem.1
      unfold wantedLeds at this
      cases groups with
      | none => exact ⟨_, this⟩
      | some gs =>
        simp only [List.mem_flatMap] at this
        obtain ⟨a, _, ha⟩ := this
        split at ha
        · exact ⟨_, ha⟩
        · simp at ha
    obtain ⟨a, ha⟩ := hb
    obtain ⟨i, old, e1, e2⟩ := mem_blockOf arrays a x.1 ha
    obtain ⟨p, p1, p2⟩ := renumbered_position t h3 arrays h2 t' h1 x.1 a i old ⟨e1, e2⟩
    exact ⟨a, i, old, p, ⟨e1, e2⟩, p1, ledData_measure photo _ R fit x.1 p x.2.2 p2 (c3 x hx)⟩
  · simp at hmem

/-- **C108**: such a run succeeds, without fitting, if at least two LEDs were matched and the photo can be measured where LEDs were
found. -/
theorem C108_succeeds (maxLoc : Image ℚ → ℕ × ℕ) (m : Metric D) (h : List ExtCmd) (t : LedTable) (arrays : List (List ℕ))
    (groups : Option (List (List ℤ))) (hs : Stage.ofHistory maxLoc m h = .matched t arrays groups) (o : Step3Options)
    (ho : FitOptions arrays groups o) (h2 : 2 ≤ arrays.flatten.length) (photo : Image ℚ) (R : ℕ)
    (hm : ∀ l ∈ t, ∃ v, measure photo l.2.1 l.2.2 R = .ok v) (skip : ℕ) :
    ∃ rows, step3Rows o photo R false skip (runHistory maxLoc m .empty h) = .ok rows := by
  have hd := history_agrees maxLoc m h
  rw [hs] at hd
  obtain ⟨t', e1, e2, e3, e4⟩ := step3Rows_matched t arrays groups o ho _ hd photo R false skip
  obtain ⟨t'', r1, _, r3, _⟩ := C19_renumbering t e3 arrays e2
  have ht : t'' = t' := by rw [e1] at r1; injection r1 with r1; exact r1.symm
  subst ht
  rw [e4, if_neg (by omega), C27_succeeds_iff]
  intro a ha i hi _
  obtain ⟨b, hb, rfl⟩ := List.mem_map.1 ha
  obtain ⟨k, _, rfl⟩ := List.mem_map.1 hb
  rw [List.mem_reverse] at hi
  have hb : ∃ a, i ∈ blockOf arrays a := by
    unfold wantedLeds at hi
    cases groups with
    | none => exact ⟨_, hi⟩
    | some gs =>
      simp only [List.mem_flatMap] at hi
      obtain ⟨a, _, ha⟩ := hi
      split at ha
      · exact ⟨_, ha⟩
      · simp at ha
  obtain ⟨a, ha⟩ := hb
  obtain ⟨j, old, q1, q2⟩ := mem_blockOf arrays a i ha
  obtain ⟨p, p1, p2⟩ := renumbered_position t e3 arrays e2 t'' e1 i a j old ⟨q1, q2⟩
  obtain ⟨v, hv⟩ := hm _ p1
  refine ⟨v, ?_⟩
  unfold ledData
  rw [p2]
  simpa using hv

/-- **C108**: the matched arrays are those the matching of the detected LEDs gives, from the last detection in the history. -/
theorem C108_stage (maxLoc : Image ℚ → ℕ × ℕ) (m : Metric D) (h : List ExtCmd) (t : LedTable) (arrays : List (List ℕ))
    (groups : Option (List (List ℤ))) (hs : Stage.ofHistory maxLoc m h = .matched t arrays groups) :
    ∃ (pre : List ExtCmd) (j : Step1Job) (post : List ExtCmd) (o : Step2Options),
      ((∃ o', h = pre ++ .steps12 j o' :: post) ∨ h = pre ++ .step1 j :: post) ∧ (∀ c ∈ post, ∃ o', c = .step2 o') ∧
      (.step2 o ∈ post ∨ h = pre ++ .steps12 j o :: post) ∧ t = j.table maxLoc ∧ arraysOf m o t = .ok arrays ∧ groups = o.groups := by
  -- the detection of the current stage, and the matching if there is one
  suffices H : ∀ h : List ExtCmd, (∀ t, Stage.ofHistory maxLoc m h = .detected t → ∃ (pre : List ExtCmd) (j : Step1Job) (post : List ExtCmd),
      ((∃ o', h = pre ++ .steps12 j o' :: post) ∨ h = pre ++ .step1 j :: post) ∧ (∀ c ∈ post, ∃ o', c = .step2 o') ∧ t = j.table maxLoc) ∧
      (∀ t arrays groups, Stage.ofHistory maxLoc m h = .matched t arrays groups →
        ∃ (pre : List ExtCmd) (j : Step1Job) (post : List ExtCmd) (o : Step2Options),
        ((∃ o', h = pre ++ .steps12 j o' :: post) ∨ h = pre ++ .step1 j :: post) ∧ (∀ c ∈ post, ∃ o', c = .step2 o') ∧
        (.step2 o ∈ post ∨ h = pre ++ .steps12 j o :: post) ∧ t = j.table maxLoc ∧ arraysOf m o t = .ok arrays ∧ groups = o.groups) from
    (H h).2 t arrays groups hs
  clear hs
  intro h
  induction h using List.reverseRecOn with
  | nil => exact ⟨fun t h => (by cases h), fun t a g h => (by cases h)⟩
  | append_singleton h c ih =>
    have e : Stage.ofHistory maxLoc m (h ++ [c]) = (Stage.ofHistory maxLoc m h).after maxLoc m c := by
      unfold Stage.ofHistory; rw [List.foldl_append]; rfl
    rw [e]
    have hmatch : ∀ (o : Step2Options) (t0 : LedTable), (∀ t, Stage.match m o (.detected t0) = .detected t → t = t0) ∧
        ∀ t a g, Stage.match m o (.detected t0) = .matched t a g → t = t0 ∧ arraysOf m o t0 = .ok a ∧ g = o.groups := by
      intro o t0
      unfold Stage.match
      simp only
      cases arraysOf m o t0 with
      | error x =>
        refine ⟨fun t h => ?_, fun t a g h => ?_⟩
        · injection h with h; exact h.symm
        · cases h
      | ok a =>
        simp only
        split
        · exact ⟨fun t h => (by cases h), fun t a g h => (by cases h)⟩
        · refine ⟨fun t h => (by cases h), fun t a g h => ?_⟩
          injection h with h1 h2 h3
          exact ⟨h1.symm, by rw [h2], h3.symm⟩
    cases c with
    | step1 j =>
      unfold Stage.after Stage.detect
      simp only
      split
      · exact ⟨fun t h => (by cases h), fun t a g h => (by cases h)⟩
      · refine ⟨fun t hd => ?_, fun t a g h => (by cases h)⟩
        injection hd with hd
        exact ⟨h, j, [], .inr rfl, by simp, hd.symm⟩
    | steps12 j o =>
      unfold Stage.after Stage.detect
      simp only
      split
      · exact ⟨fun t h => (by cases h), fun t a g h => (by cases h)⟩
      · refine ⟨fun t hd => ?_, fun t a g hm => ?_⟩
        · exact ⟨h, j, [], .inl ⟨o, rfl⟩, by simp, (hmatch o _).1 t hd⟩
        · obtain ⟨q1, q2, q3⟩ := (hmatch o _).2 t a g hm
          exact ⟨h, j, [], o, .inl ⟨o, rfl⟩, by simp, .inr rfl, q1, by rw [q1]; exact q2, q3⟩
    | step2 o =>
      unfold Stage.after
      simp only
      have keep : ∀ (pre : List ExtCmd) (j : Step1Job) (post : List ExtCmd),
          ((∃ o', h = pre ++ .steps12 j o' :: post) ∨ h = pre ++ .step1 j :: post) →
          ((∃ o', h ++ [.step2 o] = pre ++ .steps12 j o' :: (post ++ [.step2 o])) ∨
            h ++ [.step2 o] = pre ++ .step1 j :: (post ++ [.step2 o])) := by
        rintro pre j post (⟨o', rfl⟩ | rfl)
        · exact .inl ⟨o', by simp⟩
        · exact .inr (by simp)
      have keep2 : ∀ (post : List ExtCmd), (∀ c ∈ post, ∃ o', c = ExtCmd.step2 o') → ∀ c ∈ post ++ [.step2 o], ∃ o', c = ExtCmd.step2 o' := by
        intro post hp c hc
        rw [List.mem_append, List.mem_singleton] at hc
        rcases hc with hc | hc
        · exact hp c hc
        · exact ⟨o, hc⟩
      cases hst : Stage.ofHistory maxLoc m h with
      | fresh => exact ⟨fun t h => (by cases h), fun t a g h => (by cases h)⟩
      | spoilt => exact ⟨fun t h => (by cases h), fun t a g h => (by cases h)⟩
      | detected t0 =>
        obtain ⟨pre, j, post, i1, i2, i3⟩ := ih.1 t0 hst
        simp only
        split
        · refine ⟨fun t hd => ?_, fun t a g hm => (by cases hm)⟩
          injection hd with hd
          exact ⟨pre, j, post ++ [.step2 o], keep pre j post i1, keep2 post i2, by rw [← hd]; exact i3⟩
        · refine ⟨fun t hd => ?_, fun t a g hm => ?_⟩
          · exact ⟨pre, j, post ++ [.step2 o], keep pre j post i1, keep2 post i2, by rw [(hmatch o t0).1 t hd]; exact i3⟩
          · obtain ⟨q1, q2, q3⟩ := (hmatch o t0).2 t a g hm
            exact ⟨pre, j, post ++ [.step2 o], o, keep pre j post i1, keep2 post i2, .inl (by simp), by rw [q1]; exact i3,
              by rw [q1]; exact q2, q3⟩
      | matched t0 a0 g0 =>
        obtain ⟨pre, j, post, o', i1, i2, i3, i4, i5, i6⟩ := ih.2 t0 a0 g0 hst
        simp only
        refine ⟨fun t hd => (by cases hd), fun t a g hm => ?_⟩
        injection hm with m1 m2 m3
        subst m1 m2 m3
        refine ⟨pre, j, post ++ [.step2 o], o', keep pre j post i1, keep2 post i2, ?_, i4, i5, i6⟩
        rcases i3 with i3 | i3
        · exact .inl (List.mem_append_left _ i3)
        · exact .inr (by rw [i3]; simp)

/-! ### C109 -/

/-- **C108**: the arrays of a matching: one for every pair of edges, no LED twice, no ignored LED, and each array runs from its first
to its last edge, if these are different and not ignored. -/
theorem C108_arrays (m : Metric D) (hm : 0 < m.neighbours) (o : Step2Options) (t : LedTable) (hids : (t.map (·.1)).Nodup)
    (arrays : List (List ℕ)) (h : arraysOf m o t = .ok arrays) :
    arrays.length = (edgeIndices o.edges).length ∧ arrays.flatten.Nodup ∧
    (∀ id ∈ arrays.flatten, (id : ℤ) ∉ ignoredLeds o.ignore) ∧
    ∀ (k : ℕ) (e : ℤ × ℤ), (edgeIndices o.edges)[k]? = some e → e.1 ≠ e.2 → e.1 ∉ ignoredLeds o.ignore → e.2 ∉ ignoredLeds o.ignore →
      ∃ a mid, arrays[k]? = some a ∧ a.map (Nat.cast : ℕ → ℤ) = e.1 :: mid ++ [e.2] := by
  unfold arraysOf at h
  cases he : matchLeds m.dist m.neighbours m.weight (edgeIndices o.edges) o.ignore t with
  | error x => rw [he] at h; cases h
  | ok r =>
    obtain ⟨as, rest⟩ := r
    rw [he] at h
    obtain rfl := Except.ok.inj h
    simp only
    have hnd := (C14_at_most_one_array _ _ _ _ _ _ hids _ _ he).1
    obtain ⟨raw, hraw, _, hlen⟩ := C18_partition _ _ _ _ _ _ hids _ _ he
    have h17 := C17_ignored_removed _ _ _ _ o.ignore _ hids _ _ hraw
    rw [he] at h17
    have e1 := (Prod.mk.inj (Except.ok.inj h17)).1
    refine ⟨by rw [e1, List.length_map, hlen], hnd, ?_, ?_⟩
    · intro id hid
      rw [e1, List.mem_flatten] at hid
      obtain ⟨a, ha, hia⟩ := hid
      obtain ⟨b, _, rfl⟩ := List.mem_map.1 ha
      simpa using (List.mem_filter.1 hia).2
    · intro k e hk hne i1 i2
      obtain ⟨a, mid, ha, hb⟩ := C15_first_to_last _ _ hm _ _ _ hids _ _ hraw k e hk hne
      refine ⟨a.filter (fun x : ℕ => (x : ℤ) ∉ ignoredLeds o.ignore), mid.filter (fun z => z ∉ ignoredLeds o.ignore), ?_, ?_⟩
      · rw [e1, List.getElem?_map, ha]; rfl
      · have : (a.filter (fun x : ℕ => (x : ℤ) ∉ ignoredLeds o.ignore)).map (Nat.cast : ℕ → ℤ) =
            (a.map (Nat.cast : ℕ → ℤ)).filter (fun z => z ∉ ignoredLeds o.ignore) := by
          rw [List.filter_map]; rfl
        rw [this, hb]
        simp [List.filter_cons, List.filter_append, i1, i2]

/-- **C109, partial**: for any number of LEDs but one, running steps 1 and 2 together or one after the other leaves the same
files. -/
theorem C109_together_partial (m : Metric D) (o : Step2Options) (t : LedTable) (ht : t.length ≠ 1) (d : ExtDisk) :
    (runSteps12 m o t d).1 = (runStep2 m o (runStep1 t d).1).1 := by
  unfold runSteps12 runStep2 runStep1
  simp only
  by_cases h : t = []
  · subst h
    simp only [if_true, loadTable_text, List.length_nil, Nat.zero_le]
    split <;> rfl
  · have : ¬ t.length ≤ 1 := by
      have := List.length_pos_iff.2 h
      omega
    rw [if_neg h]
    simp only [Bool.false_eq_true, if_false, loadTable_text, if_neg this]

/-- **C109**: and the second session reports the same exception, if the first one has detected LEDs. -/
theorem C109_exception_partial (m : Metric D) (o : Step2Options) (t : LedTable) (ht : 2 ≤ t.length) (d : ExtDisk) :
    (runSteps12 m o t d).2 = (runStep2 m o (runStep1 t d).1).2 := by
  unfold runSteps12 runStep2 runStep1
  simp only
  have h : t ≠ [] := by rintro rfl; simp at ht
  rw [if_neg h]
  simp only [Bool.false_eq_true, if_false, loadTable_text, if_neg (show ¬ t.length ≤ 1 by omega)]

/-- **C109 refuted** for a single LED: together the steps give an array, one after the other step 2 always stops. -/
theorem C109_false (m : Metric D) (p : ℤ × ℤ) (d : ExtDisk) :
    (∀ o, (runStep2 m o (runStep1 [(0, p)] d).1).2 = .error .indexError) ∧
    ∃ o, (runSteps12 m o [(0, p)] d).2 = .ok () ∧ loadArrays 1 none (runSteps12 m o [(0, p)] d).1.index = .ok [[0]] := by
  constructor
  · intro o
    unfold runStep2 runStep1
    simp [loadTable_text]
  · have ha : arraysOf m ⟨"0 0".toList, "None".toList, none⟩ [(0, p)] = .ok [[0]] := by
      have e1 : edgeIndices "0 0".toList = [(0, 0)] := by decide +kernel
      have e2 : ignoredLeds "None".toList = [] := by decide +kernel
      have e3 : findNextLed m.dist m.neighbours m.weight p p [] = none := by
        unfold findNextLed
        simp only [List.length_nil, Nat.min_zero]
        rfl
      unfold arraysOf matchLeds
      rw [e1, e2]
      simp [matchAll, matchOne, LedDict.findI, LedDict.find, walk, LedDict.del, removeIgnored, e3, Except.map]
    obtain ⟨o, ha, ho⟩ : ∃ o : Step2Options, arraysOf m o [(0, p)] = .ok [[0]] ∧ o.groups = none := ⟨_, ha, rfl⟩
    have hr : reorderSearchAreas [(0, p)] [[0]] = .ok [(0, p)] := rfl
    have hrun : runSteps12 m o [(0, p)] d = (⟨some (tableText true [(0, p)]), true, step2Files [[0]] none d.index⟩, .ok ()) := by
      unfold runSteps12 runStep1 matchTable
      simp [ha, hr, ho]
    refine ⟨o, ?_⟩
    rw [hrun]
    exact ⟨rfl, C105_loaded_partial [[0]] d.index⟩

/-! ### C110 -/

/-- **C110, partial**: as long as LEDs were never matched, or nothing was found at last, step 3 stops. -/
theorem C110_stops_partial (maxLoc : Image ℚ → ℕ × ℕ) (m : Metric D) (h : List ExtCmd) (o : Step3Options) (photo : Image ℚ) (R : ℕ)
    (fit : Bool) (skip : ℕ)
    (hs : Stage.ofHistory maxLoc m h = .fresh ∨ Stage.ofHistory maxLoc m h = .spoilt ∨
      ((∀ c ∈ h, ∃ j, c = .step1 j) ∧ ((o.groups = none ∧ 0 < o.numArrays) ∨ ∃ g, o.groups = some g ∧ g ≠ []))) :
    ∃ e, step3Rows o photo R fit skip (runHistory maxLoc m .empty h) = .error e := by
  have hd := history_agrees maxLoc m h
  unfold step3Rows step3Input
  rcases hs with hs | hs | ⟨hs, hn⟩
  · rw [hs] at hd
    rw [hd.1]
    exact ⟨_, rfl⟩
  · rw [hs] at hd
    obtain ⟨b, hb⟩ := hd
    rw [hb]
    simp only [bind, Except.bind, loadTable_text]
    cases loadArrays o.numArrays o.groups (runHistory maxLoc m .empty h).index with
    | error e => exact ⟨e, rfl⟩
    | ok a => exact ⟨_, rfl⟩
  · have hi : ∀ (cs : List ExtCmd) (d : ExtDisk), (∀ c ∈ cs, ∃ j, c = .step1 j) → (∀ n, d.index n = none) →
        ∀ n, (runHistory maxLoc m d cs).index n = none := by
      intro cs
      induction cs with
      | nil => intro d _ h; exact h
      | cons c cs ih =>
        intro d hc h
        obtain ⟨j, rfl⟩ := hc c (by simp)
        apply ih _ (fun c hc' => hc c (List.mem_cons_of_mem _ hc'))
        intro n
        unfold ExtCmd.run runStep1
        simp only
        split <;> exact h n
    have hidx := hi h .empty hs (fun _ => rfl)
    have hl : loadArrays o.numArrays o.groups (runHistory maxLoc m .empty h).index = .error .fileNotFound := by
      unfold loadArrays
      have : ∀ (n : ℕ) (ext : Str), 0 < n → ((List.range n).mapM fun (i : ℕ) =>
          loadIndexFile ((runHistory maxLoc m .empty h).index (indexFileName i ext))) = (.error .fileNotFound : Except PyErr _) := by
        intro n ext hn
        obtain ⟨k, rfl⟩ : ∃ k, n = k + 1 := ⟨n - 1, by omega⟩
        rw [List.range_succ_eq_map, List.mapM_cons, hidx]
        rfl
      apply this
      rcases hn with ⟨h1, h2⟩ | ⟨g, h1, h2⟩
      · rw [h1]; simp only; omega
      · rw [h1]; exact List.length_pos_iff.2 h2
    cases (runHistory maxLoc m .empty h).areas with
    | none => exact ⟨_, rfl⟩
    | some text =>
      simp only [bind, Except.bind, hl]
      cases loadTable text with
      | error e => exact ⟨e, rfl⟩
      | ok t => exact ⟨_, rfl⟩

/-- **C110 refuted**: if step 1 is repeated after step 2, step 3 takes LED number `i` of the new detection for the LED that step 2
has numbered `i`, although detection numbers LEDs by brightness and step 2 along the arrays. -/
theorem C110_mixed_false (maxLoc : Image ℚ → ℕ × ℕ) (m : Metric D) (h : List ExtCmd) (t : LedTable) (arrays : List (List ℕ))
    (groups : Option (List (List ℤ))) (hs : Stage.ofHistory maxLoc m h = .matched t arrays groups) (o : Step3Options)
    (ho : FitOptions arrays groups o) (j : Step1Job) (h2 : 2 ≤ (j.table maxLoc).length) (photo : Image ℚ) (R : ℕ) (fit : Bool) (skip : ℕ) :
    step3Rows o photo R fit skip (runHistory maxLoc m .empty (h ++ [.step1 j])) =
      imageRows photo ((j.table maxLoc).map (·.2)) R fit skip
        (((List.range (wantedCount arrays groups)).map (wantedLeds arrays groups)).map List.reverse) := by
  have hd := history_agrees maxLoc m h
  rw [hs] at hd
  obtain ⟨t', files, a1, a2, a3, a4, a5, a6, a7⟩ := hd
  have e : runHistory maxLoc m .empty (h ++ [.step1 j]) = (runStep1 (j.table maxLoc) (runHistory maxLoc m .empty h)).1 := by
    unfold runHistory; rw [List.foldl_append]; rfl
  have hne : j.table maxLoc ≠ [] := by intro h0; rw [h0] at h2; simp at h2
  rw [e]
  unfold step3Rows step3Input runStep1
  simp only
  rw [if_neg hne]
  simp only [bind, Except.bind, loadTable_text, a7, loadArrays_wanted arrays groups o ho]
  rw [if_neg (by omega)]
  congr 1
  rw [List.map_map]
  refine List.map_congr_left fun a _ => ?_
  simp only [Function.comp, List.map_map]
  conv_rhs => rw [← List.map_id a.reverse]
  exact List.map_congr_left fun x _ => Int.toNat_natCast x

/-! ### Examples -/

/-- Two LEDs, the left one brighter. -/
def pairImage : Image ℚ := ⟨4, 8, fun i j => if i = 2 ∧ j = 2 then 9 else if i = 2 ∧ j = 5 then 7 else 0⟩

/-- Detection in this image. -/
def pairJob : Step1Job := ⟨pairImage, 1, 1, 5⟩

/-- From the right LED to the left one. -/
def pairOptions : Step2Options := ⟨"1 0".toList, "None".toList, none⟩

/-- Sum of the differences as distance. -/
def pairMetric : Metric ℤ := ⟨fun p q => |p.1 - q.1| + |p.2 - q.2|, 5, 1⟩

-- the LEDs are found by brightness; after step 2 the right LED is number 0, and it is measured as such
example : pairJob.table firstMaxLoc = [(0, 2, 2), (1, 2, 5)] := by decide +kernel
example : (arraysOf pairMetric pairOptions (pairJob.table firstMaxLoc)).toOption = some [[1, 0]] := by decide +kernel
example : (step3Rows ⟨1, none⟩ pairImage 1 false 0
    (runHistory firstMaxLoc pairMetric .empty [.step1 pairJob, .step2 pairOptions, .step2 pairOptions])).toOption =
    some [(1, 0, ⟨9, 9 / 4, 9⟩), (0, 0, ⟨7, 7 / 4, 7⟩)] := by decide +kernel

/-- **C110 refuted**: repeating step 1 with the same picture and options exchanges the values of the LEDs, without any message. -/
theorem C110_false : ¬ ∀ (j : Step1Job) (o2 : Step2Options) (o3 : Step3Options) (photo : Image ℚ) (R : ℕ) (rows rows' : List (ℕ × ℕ × Measured ℚ)),
    step3Rows o3 photo R false 0 (runHistory firstMaxLoc pairMetric .empty [.steps12 j o2]) = .ok rows →
    step3Rows o3 photo R false 0 (runHistory firstMaxLoc pairMetric .empty [.steps12 j o2, .step1 j]) = .ok rows' → rows = rows' := by
  intro h
  have e1 : (step3Rows ⟨1, none⟩ pairImage 1 false 0 (runHistory firstMaxLoc pairMetric .empty [.steps12 pairJob pairOptions])).toOption =
    some [(1, 0, ⟨9, 9 / 4, 9⟩), (0, 0, ⟨7, 7 / 4, 7⟩)] := by decide +kernel
  have e2 : (step3Rows ⟨1, none⟩ pairImage 1 false 0
      (runHistory firstMaxLoc pairMetric .empty [.steps12 pairJob pairOptions, .step1 pairJob])).toOption =
    some [(1, 0, ⟨7, 7 / 4, 7⟩), (0, 0, ⟨9, 9 / 4, 9⟩)] := by decide +kernel
  have conv : ∀ {x : Except PyErr (List (ℕ × ℕ × Measured ℚ))} {r}, x.toOption = some r → x = .ok r := by
    intro x r h
    cases x with
    | error e => cases h
    | ok v => simp only [Except.toOption, Option.some.injEq] at h; rw [h]
  have := h pairJob pairOptions ⟨1, none⟩ pairImage 1 _ _ (conv e1) (conv e2)
  revert this
  decide +kernel

end Ledsa
