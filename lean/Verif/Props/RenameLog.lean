import Verif.Model.RenameLog
import Verif.Props.Rename

/-!
# Undoing a renaming from its log

What is meant by undoing is fixed here, independent of the program: read the log as a table of comma separated values, go through it from
the last row to the first, and give every file that has the new name of the row its old name back.
-/

namespace Ledsa

/-! ### Reading comma separated values -/

/-- Where the reader is: at the start of an entry, in one without quotation marks, in one with them, after a quotation mark in such an
entry, or after a carriage return. -/
inductive CsvAt | start | plain | quoted | closing | afterCr
deriving DecidableEq

/-- The rows of a text. `f` is the entry read so far, `row` the entries of the row before it, both in reverse order. -/
def csvRead : CsvAt → Str → List Str → Str → List (List Str)
  | .quoted, f, row, [] => [(f.reverse :: row).reverse]
  | .closing, f, row, [] => [(f.reverse :: row).reverse]
  | .plain, f, row, [] => [(f.reverse :: row).reverse]
  | .start, _, row, [] => if row = [] then [] else [([] :: row).reverse]
  | .afterCr, _, _, [] => []
  | .quoted, f, row, c :: t => if c = '"' then csvRead .closing f row t else csvRead .quoted (c :: f) row t
  | .closing, f, row, c :: t =>
    if c = '"' then csvRead .quoted (c :: f) row t
    else if c = ',' then csvRead .start [] (f.reverse :: row) t
    else if c = '\r' then (f.reverse :: row).reverse :: csvRead .afterCr [] [] t
    else if c = '\n' then (f.reverse :: row).reverse :: csvRead .start [] [] t
    else csvRead .plain (c :: f) row t
  | .plain, f, row, c :: t =>
    if c = ',' then csvRead .start [] (f.reverse :: row) t
    else if c = '\r' then (f.reverse :: row).reverse :: csvRead .afterCr [] [] t
    else if c = '\n' then (f.reverse :: row).reverse :: csvRead .start [] [] t
    else csvRead .plain (c :: f) row t
  | .start, f, row, c :: t =>
    if c = '"' then csvRead .quoted f row t
    else if c = ',' then csvRead .start [] (f.reverse :: row) t
    else if c = '\r' then (f.reverse :: row).reverse :: csvRead .afterCr [] [] t
    else if c = '\n' then (f.reverse :: row).reverse :: csvRead .start [] [] t
    else csvRead .plain (c :: f) row t
  | .afterCr, f, row, c :: t =>
    if c = '\n' then csvRead .start [] [] t
    else if c = '"' then csvRead .quoted f row t
    else if c = ',' then csvRead .start [] (f.reverse :: row) t
    else if c = '\r' then (f.reverse :: row).reverse :: csvRead .afterCr [] [] t
    else csvRead .plain (c :: f) row t

theorem csvRead_plain (g : Str) (hg : csvQuoted g = false) : ∀ (f : Str) (row : List Str) (t : Str),
    csvRead .plain f row (g ++ t) = csvRead .plain (g.reverse ++ f) row t := by
  induction g with
  | nil => intro f row t; rfl
  | cons c g ih =>
    intro f row t
    simp only [csvQuoted, List.any_cons, Bool.or_eq_false_iff, decide_eq_false_iff_not] at hg
    obtain ⟨⟨⟨⟨h1, h2⟩, h3⟩, h4⟩, h5⟩ := hg
    rw [List.cons_append, csvRead, if_neg h1, if_neg h3, if_neg h4, ih h5]
    simp

theorem csvRead_quoted (g : Str) : ∀ (f : Str) (row : List Str) (t : Str),
    csvRead .quoted f row (csvEscape g ++ t) = csvRead .quoted (g.reverse ++ f) row t := by
  induction g with
  | nil => intro f row t; rfl
  | cons c g ih =>
    intro f row t
    unfold csvEscape
    split
    · rename_i h
      rw [List.cons_append, List.cons_append, csvRead, if_pos rfl, csvRead, if_pos rfl, ih, h]
      simp
    · rename_i h
      rw [List.cons_append, csvRead, if_neg h, ih]
      simp

/-- An entry followed by a comma. -/
theorem csvRead_comma (g : Str) (row : List Str) (t : Str) :
    csvRead .start [] row (csvEntry g ++ ',' :: t) = csvRead .start [] (g :: row) t := by
  unfold csvEntry
  split
  · rw [List.append_assoc, List.cons_append, csvRead, if_pos rfl, csvRead_quoted]
    rw [List.singleton_append, csvRead, if_pos rfl, csvRead, if_neg (by decide), if_pos rfl]
    simp
  · rename_i hq
    have hq : csvQuoted g = false := by simpa using hq
    cases g with
    | nil => rw [List.nil_append, csvRead, if_neg (by decide), if_pos rfl]; rfl
    | cons c g =>
      have hq' := hq
      simp only [csvQuoted, List.any_cons, Bool.or_eq_false_iff, decide_eq_false_iff_not] at hq'
      obtain ⟨⟨⟨⟨h1, h2⟩, h3⟩, h4⟩, h5⟩ := hq'
      rw [List.cons_append, csvRead, if_neg h2, if_neg h1, if_neg h3, if_neg h4, csvRead_plain g h5, csvRead, if_pos rfl]
      simp

/-- The last entry of a line. -/
theorem csvRead_end (g : Str) (row : List Str) (t : Str) :
    csvRead .start [] row (csvEntry g ++ "\r\n".toList ++ t) = (g :: row).reverse :: csvRead .start [] [] t := by
  have e : "\r\n".toList = ['\r', '\n'] := rfl
  rw [e]
  have hnl : csvRead .afterCr [] [] ('\n' :: t) = csvRead .start [] [] t := by rw [csvRead, if_pos rfl]
  unfold csvEntry
  split
  · rw [List.append_assoc, List.append_assoc, List.cons_append, csvRead, if_pos rfl, csvRead_quoted]
    rw [List.singleton_append, csvRead, if_pos rfl, List.cons_append, csvRead, if_neg (by decide), if_neg (by decide), if_pos rfl,
      List.cons_append, List.nil_append, hnl]
    simp
  · rename_i hq
    have hq : csvQuoted g = false := by simpa using hq
    cases g with
    | nil =>
      rw [List.nil_append, List.cons_append, csvRead, if_neg (by decide), if_neg (by decide), if_pos rfl, List.cons_append, List.nil_append, hnl]
      rfl
    | cons c g =>
      have hq' := hq
      simp only [csvQuoted, List.any_cons, Bool.or_eq_false_iff, decide_eq_false_iff_not] at hq'
      obtain ⟨⟨⟨⟨h1, h2⟩, h3⟩, h4⟩, h5⟩ := hq'
      rw [List.append_assoc, List.cons_append, csvRead, if_neg h2, if_neg h1, if_neg h3, if_neg h4, csvRead_plain g h5, List.cons_append,
        csvRead, if_neg (by decide), if_pos rfl, List.cons_append, List.nil_append, hnl]
      simp

theorem csvRead_line : ∀ (l : List Str) (row : List Str) (t : Str), l ≠ [] →
    csvRead .start [] row (csvLine l ++ t) = (row.reverse ++ l) :: csvRead .start [] [] t
  | [], _, _, h => absurd rfl h
  | [f], row, t, _ => by
    rw [csvLine, csvRead_end]
    simp
  | f :: g :: l, row, t, _ => by
    rw [csvLine, List.append_assoc, List.cons_append, csvRead_comma, csvRead_line (g :: l) _ t (by simp)]
    simp

/-- The reader gets back what was written, for all texts. -/
theorem csvRead_lines (rows : List (List Str)) (h : ∀ l ∈ rows, l ≠ []) : csvRead .start [] [] (rows.flatMap csvLine) = rows := by
  induction rows with
  | nil => rfl
  | cons l rows ih =>
    rw [List.flatMap_cons, csvRead_line l [] _ (h l (by simp)), ih fun l hl => h l (List.mem_cons_of_mem _ hl)]
    rfl

/-! ### Undoing -/

/-- The renamings that a row of the log tells, in the order in which they are done. -/
def rowRenames : List Str → List (Str × Str)
  | [image, newImage, raw, newRaw] => [(raw, newRaw), (image, newImage)]
  | _ => []

/-- The renamings that a log tells: its first row names the columns. -/
def logRenames (text : Str) : List (Str × Str) := (csvRead .start [] [] text).tail.flatMap rowRenames

/-- Give the files their old names back, from the last renaming to the first. -/
def undoAll {C : Type} : List (Str × Str) → Dir C → Dir C
  | [], d => d
  | (a, b) :: l, d =>
    let d' := undoAll l d
    if b ∈ d'.names then (match osRename b a d' with
      | .ok d'' => d''
      | .error _ => d')
    else d'

/-- **C193.** The log tells exactly the renamings of the program, whatever characters the names have. -/
theorem C193_log (name : Str) (shots : List Shot) : logRenames (renameLog name shots) = renamePlan name shots 1 := by
  unfold logRenames renameLog
  rw [csvRead_lines]
  · rw [List.tail_cons]
    generalize 1 = n
    induction shots generalizing n with
    | nil => rfl
    | cons s l ih =>
      rw [renameLogRows, List.flatMap_cons, ih, renamePlan]
      rfl
  · have : ∀ (l : List Shot) (n : Nat), ∀ r ∈ renameLogRows name l n, r ≠ [] := by
      intro l
      induction l with
      | nil => intro n r hr; cases hr
      | cons s l ih =>
        intro n r hr
        rcases List.mem_cons.1 hr with rfl | hr
        · simp
        · exact ih (n + 1) r hr
    intro r hr
    rcases List.mem_cons.1 hr with rfl | hr
    · simp [renameLogHeader]
    · exact this shots 1 r hr

theorem runRenames_names {C : Type} : ∀ (plan : List (Str × Str)) (d d' : Dir C), runRenames plan d = (d', none) → (∀ p ∈ plan, p.2 ∉ d.names) →
    (plan.map (·.2)).Nodup → ∀ x ∈ d'.names, x ∈ d.names ∨ x ∈ plan.map (·.2)
  | [], d, d', h, _, _, x, hx => by rw [← (Prod.mk.inj h).1] at hx; exact .inl hx
  | (a, b) :: l, d, d', h, hnew, hnd, x, hx => by
    rw [runRenames] at h
    split at h
    · cases (Prod.mk.inj h).2
    · rename_i d1 h1
      rw [List.map_cons, List.nodup_cons] at hnd
      have ha : a ∈ d.names := by
        by_contra hc
        rw [osRename_missing b hc] at h1
        cases h1
      have hab : a ≠ b := fun e => hnew (a, b) (by simp) (e ▸ ha)
      have hc := osRename_content h1 hab
      have hn1 : ∀ p ∈ l, p.2 ∉ d1.names := by
        intro p hp hm
        have hpb : p.2 ≠ b := fun e => hnd.1 (e ▸ List.mem_map_of_mem (f := (·.2)) hp)
        have hpa : p.2 ≠ a := fun e => hnew p (List.mem_cons_of_mem _ hp) (e ▸ ha)
        rw [mem_names, hc, if_neg hpb, if_neg hpa, ← mem_names] at hm
        exact hnew p (List.mem_cons_of_mem _ hp) hm
      rcases runRenames_names l d1 d' h hn1 hnd.2 x hx with h2 | h2
      · by_cases hxb : x = b
        · exact .inr (by simp [hxb])
        · rw [mem_names, hc, if_neg hxb] at h2
          by_cases hxa : x = a
          · exact .inl (hxa ▸ ha)
          · rw [if_neg hxa, ← mem_names] at h2
            exact .inl h2
      · exact .inr (List.mem_cons_of_mem _ h2)

theorem undoAll_skip {C : Type} : ∀ (l : List (Str × Str)) (d : Dir C), (∀ p ∈ l, p.2 ∉ d.names) → undoAll l d = d
  | [], _, _ => rfl
  | (a, b) :: l, d, h => by
    rw [undoAll, undoAll_skip l d fun p hp => h p (List.mem_cons_of_mem _ hp)]
    exact if_neg (h (a, b) (by simp))

theorem undoAll_append {C : Type} : ∀ (l l' : List (Str × Str)) (d : Dir C), undoAll (l ++ l') d = undoAll l (undoAll l' d)
  | [], _, _ => rfl
  | (a, b) :: l, l', d => by
    rw [List.cons_append, undoAll, undoAll, undoAll_append l l' d]

theorem undoAll_content {C : Type} : ∀ (plan : List (Str × Str)) (d d' : Dir C), runRenames plan d = (d', none) →
    (∀ p ∈ plan, p.2 ∉ d.names) → (plan.map (·.2)).Nodup → ∀ x, content (undoAll plan d') x = content d x
  | [], d, d', h, _, _, x => by rw [← (Prod.mk.inj h).1]; rfl
  | (a, b) :: l, d, d', h, hnew, hnd, x => by
    rw [runRenames] at h
    split at h
    · cases (Prod.mk.inj h).2
    · rename_i d1 h1
      rw [List.map_cons, List.nodup_cons] at hnd
      have ha : a ∈ d.names := by
        by_contra hc
        rw [osRename_missing b hc] at h1
        cases h1
      have hb : b ∉ d.names := hnew (a, b) (by simp)
      have hab : a ≠ b := fun e => hb (e ▸ ha)
      have hc := osRename_content h1 hab
      have hn1 : ∀ p ∈ l, p.2 ∉ d1.names := by
        intro p hp hm
        have hpb : p.2 ≠ b := fun e => hnd.1 (e ▸ List.mem_map_of_mem (f := (·.2)) hp)
        have hpa : p.2 ≠ a := fun e => hnew p (List.mem_cons_of_mem _ hp) (e ▸ ha)
        rw [mem_names, hc, if_neg hpb, if_neg hpa, ← mem_names] at hm
        exact hnew p (List.mem_cons_of_mem _ hp) hm
      have ih := undoAll_content l d1 d' h hn1 hnd.2
      have hbm : b ∈ (undoAll l d').names := by
        rw [mem_names, ih, hc, if_pos rfl, ← mem_names]
        exact ha
      rw [undoAll]
      rw [if_pos hbm]
      obtain ⟨d2, h2⟩ := osRename_ok a hbm
      rw [h2]
      simp only
      rw [osRename_content h2 (Ne.symm hab), ih, ih]
      by_cases hxa : x = a
      · rw [if_pos hxa, hc, if_pos rfl, hxa]
      · rw [if_neg hxa]
        by_cases hxb : x = b
        · rw [if_pos hxb, hxb, content_none.2 hb]
        · rw [if_neg hxb, hc, if_neg hxb, if_neg hxa]

/-- What was done when renamings ended, with or without an exception: the first ones, completely. -/
theorem runRenames_prefix {C : Type} : ∀ (plan : List (Str × Str)) (d d' : Dir C) (e : Option PyErr), runRenames plan d = (d', e) →
    ∃ k, runRenames (plan.take k) d = (d', none)
  | [], d, d', e, h => ⟨0, by rw [← (Prod.mk.inj h).1]; rfl⟩
  | (a, b) :: l, d, d', e, h => by
    rw [runRenames] at h
    split at h
    · exact ⟨0, by rw [← (Prod.mk.inj h).1]; rfl⟩
    · rename_i d1 h1
      obtain ⟨k, hk⟩ := runRenames_prefix l d1 d' e h
      exact ⟨k + 1, by rw [List.take_succ_cons, runRenames, h1]; exact hk⟩

/-- **C193** (partial): if none of the new names was in use and no raw file has the ending `jpg`, then at whatever renaming the program
was stopped, its log gives every file its name back. Missing: new names in use (`C193_false`). -/
theorem C193_stopped_partial {C : Type} (name : Str) (shots : List Shot) (d d' : Dir C) (hjpg : ∀ s ∈ shots, extOf s.raw ≠ "jpg".toList)
    (hnew : ∀ p ∈ renamePlan name shots 1, p.2 ∉ d.names) (k : Nat) (h : runRenames ((renamePlan name shots 1).take k) d = (d', none))
    (x : Str) : content (undoAll (logRenames (renameLog name shots)) d') x = content d x := by
  rw [C193_log]
  have hnd := (C64_new_names name shots 1).2 hjpg
  set plan := renamePlan name shots 1 with hp
  have hsplit : plan = plan.take k ++ plan.drop k := (List.take_append_drop k plan).symm
  have hnd' : ((plan.take k).map (·.2)).Nodup := hnd.sublist (List.Sublist.map _ (List.take_sublist k plan))
  have hnew' : ∀ p ∈ plan.take k, p.2 ∉ d.names := fun p hp => hnew p (List.mem_of_mem_take hp)
  rw [hsplit, undoAll_append, undoAll_skip (plan.drop k) d']
  · exact undoAll_content _ d d' h hnew' hnd' x
  · intro p hp hm
    rcases runRenames_names _ d d' h hnew' hnd' _ hm with h1 | h1
    · exact hnew p (List.mem_of_mem_drop hp) h1
    · rw [hsplit, List.map_append] at hnd
      exact (List.nodup_append.1 hnd).2.2 _ h1 _ (List.mem_map_of_mem (f := (·.2)) hp) rfl

/-- **C193** (partial): also if a renaming failed, for example because an image has no raw file. -/
theorem C193_failed_partial {C : Type} (name : Str) (shots : List Shot) (d d' : Dir C) (hjpg : ∀ s ∈ shots, extOf s.raw ≠ "jpg".toList)
    (hnew : ∀ p ∈ renamePlan name shots 1, p.2 ∉ d.names) (e : Option PyErr) (h : runRenames (renamePlan name shots 1) d = (d', e))
    (x : Str) : content (undoAll (logRenames (renameLog name shots)) d') x = content d x := by
  obtain ⟨k, hk⟩ := runRenames_prefix _ _ _ _ h
  exact C193_stopped_partial name shots d d' hjpg hnew k hk x

/-- **C193** (partial): and after every dialogue, however often the user had the files renamed. -/
theorem C193_dialogue_partial {C : Type} (name : Str) (shots : List Shot) (hne : shots ≠ []) (d : Dir C)
    (hjpg : ∀ s ∈ shots, extOf s.raw ≠ "jpg".toList) (hnew : ∀ p ∈ renamePlan name shots 1, p.2 ∉ d.names) (answers : List Str) (ms : List RenameMsg)
    (x : Str) : content (undoAll (logRenames (renameLog name shots)) (renameDialogue (renamePlan name shots 1) answers d ms).dir) x = content d x := by
  set plan := renamePlan name shots 1 with hp
  -- after a renaming without exception the first file is gone, so that another renaming fails at once
  have again : ∀ d', runRenames plan d = (d', none) → ∃ e, runRenames plan d' = (d', some e) := by
    intro d' h
    obtain ⟨s, l, rfl⟩ : ∃ s l, shots = s :: l := by
      cases shots with
      | nil => exact absurd rfl hne
      | cons s l => exact ⟨s, l, rfl⟩
    have hnd := (C64_new_names name (s :: l) 1).2 hjpg
    rw [← hp] at hnd
    rw [renamePlan] at hp
    rw [hp] at h hnew hnd ⊢
    have hmiss : s.raw ∉ d'.names := by
      rw [runRenames] at h
      split at h
      · cases (Prod.mk.inj h).2
      · rename_i d1 h1
        have ha : s.raw ∈ d.names := by
          by_contra hc
          rw [osRename_missing _ hc] at h1
          cases h1
        have hab : s.raw ≠ newRaw name s 1 := fun e => hnew (s.raw, newRaw name s 1) (by simp) (e ▸ ha)
        have hc := osRename_content h1 hab
        rw [List.map_cons, List.nodup_cons] at hnd
        have hn1 : ∀ p ∈ (s.image, newImage name s 1) :: renamePlan name l (1 + 1), p.2 ∉ d1.names := by
          intro p hp hm
          have hpb : p.2 ≠ newRaw name s 1 := fun e => hnd.1 (e ▸ List.mem_map_of_mem (f := (·.2)) hp)
          have hpa : p.2 ≠ s.raw := fun e => hnew p (List.mem_cons_of_mem _ hp) (e ▸ ha)
          rw [mem_names, hc, if_neg hpb, if_neg hpa, ← mem_names] at hm
          exact hnew p (List.mem_cons_of_mem _ hp) hm
        intro hm
        rcases runRenames_names _ d1 d' h hn1 hnd.2 _ hm with h2 | h2
        · rw [mem_names, hc, if_neg hab, if_pos rfl] at h2
          exact h2 rfl
        · obtain ⟨p, hp, e⟩ := List.mem_map.1 h2
          exact hnew p (List.mem_cons_of_mem _ hp) (e ▸ ha)
    exact ⟨.fileNotFound, by rw [runRenames, osRename_missing _ hmiss]⟩
  have base : ∀ d' e, runRenames plan d = (d', e) → content (undoAll (logRenames (renameLog name shots)) d') x = content d x :=
    fun d' e h => C193_failed_partial name shots d d' hjpg hnew e h x
  have same : content (undoAll (logRenames (renameLog name shots)) d) x = content d x :=
    C193_stopped_partial name shots d d hjpg hnew 0 rfl x
  have after : ∀ (n : Nat) (as : List Str), as.length ≤ n → ∀ d' ms, runRenames plan d = (d', none) →
      (renameDialogue plan as d' ms).dir = d' := by
    intro n
    induction n with
    | zero =>
      intro as has d' ms h
      rw [List.length_eq_zero_iff.1 (Nat.le_zero.1 has)]
      rfl
    | succ n ih =>
      intro as has d' ms h
      obtain ⟨e, he⟩ := again d' h
      match as, has with
      | [], _ => rfl
      | [a], _ => unfold renameDialogue; rw [he]; split <;> [rfl; (split <;> rfl)]
      | a :: b :: rest, has =>
        unfold renameDialogue
        rw [he]
        split
        · rfl
        · split
          · rfl
          · exact ih (b :: rest) (by simp only [List.length_cons] at has ⊢; omega) d' ms h
  have key : ∀ (n : Nat) (as : List Str), as.length ≤ n → ∀ ms,
      content (undoAll (logRenames (renameLog name shots)) (renameDialogue plan as d ms).dir) x = content d x := by
    intro n
    induction n with
    | zero =>
      intro as has ms
      rw [List.length_eq_zero_iff.1 (Nat.le_zero.1 has)]
      exact same
    | succ n ih =>
      intro as has ms
      match as, has with
      | [], _ => exact same
      | [a], _ =>
        unfold renameDialogue
        split
        · split
          · rename_i d' e h; exact base d' _ h
          · rename_i d' h; exact base d' _ h
        · split <;> exact same
      | a :: b :: rest, has =>
        unfold renameDialogue
        split
        · split
          · rename_i d' e h; exact base d' _ h
          · rename_i d' h
            split
            · exact base d' _ h
            · split
              · exact base d' _ h
              · rw [after rest.length rest le_rfl d' _ h]
                exact base d' _ h
        · split
          · exact same
          · exact ih (b :: rest) (by simp only [List.length_cons] at has ⊢; omega) ms
  exact key answers.length answers le_rfl ms

/-- **C193** (refuted): if a new name is in use, the file that has it is lost, and the log does not help. -/
theorem C193_false : ∃ (name : Str) (shots : List Shot) (d d' : Dir Nat), runRenames (renamePlan name shots 1) d = (d', none) ∧
    ∃ x c, content d x = some c ∧ content (undoAll (logRenames (renameLog name shots)) d') x = none :=
  ⟨"a".toList, [⟨"P1.jpg".toList, "P1.CR2".toList, 0, "261117".toList⟩],
    [("P1.jpg".toList, 1), ("P1.CR2".toList, 2), ("261117_a_1.jpg".toList, 3)], _, rfl, "261117_a_1.jpg".toList, 3, by decide +kernel, by
      rw [C193_log]
      decide +kernel⟩

-- two photos with a comma in the name, renamed and named back
example : logRenames (renameLog "fire, 2".toList [⟨"a,b.jpg".toList, "a,b.CR2".toList, 0, "261117".toList⟩]) =
    [("a,b.CR2".toList, "261117_fire, 2_1.CR2".toList), ("a,b.jpg".toList, "261117_fire, 2_1.jpg".toList)] := by decide +kernel

end Ledsa
