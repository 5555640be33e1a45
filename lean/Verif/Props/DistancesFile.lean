import Verif.Model.DistancesFile
import Verif.Props.SavedNumbers
import Verif.Props.FitWarnings

/-!
# The files with the distances per layer (C186)

The specification is the history of commands: which command reached an LED array last, and which saved its coefficients last.
-/

namespace Ledsa

/-! ### The text of the file -/

theorem distancesLine_noLine (row : List ℚ) : '\n' ∉ distancesLine row :=
  joinChar_notMem (by decide) _ fun f hf => by
    obtain ⟨q, _, rfl⟩ := List.mem_map.1 hf
    exact fmtSciD_notMem 18 q _ (by decide)

theorem distancesLine_split (row : List ℚ) : splitWs (distancesLine row) = row.map (fmtSciD 18) :=
  splitWs_joinChar _ fun f hf => by
    obtain ⟨q, _, rfl⟩ := List.mem_map.1 hf
    exact ⟨fmtSciD_ne_nil 18 q, fun c hc => isWs_isNumChar (fmtSciD_chars 18 q c hc)⟩

theorem readDistances_text {K : Type} (conv : ℚ → K) (rows : List (List ℚ)) (h : ∀ r ∈ rows, r ≠ []) :
    readDistances conv (distancesText rows) = some (rows.map fun r => r.map fun x => conv (sciValD 18 x)) := by
  unfold readDistances distancesText
  have e0 : (rows.map fun r => distancesLine r ++ ['\n']) = (rows.map distancesLine).map fun l => l ++ ['\n'] := by rw [List.map_map]; rfl
  rw [e0, splitChar_textLines _ fun l hl => by obtain ⟨r, _, rfl⟩ := List.mem_map.1 hl; exact distancesLine_noLine r,
    List.filter_append, List.filter_cons_of_neg (by simp), List.filter_nil, List.append_nil, List.filter_eq_self.2]
  · rw [List.mapM_map]
    clear h e0
    induction rows with
    | nil => rfl
    | cons r rows ih =>
      rw [List.mapM_cons, ih]
      simp only [Function.comp]
      rw [distancesLine_split, mapM_readFloat]
      simp only [List.map_cons, Option.map_some, List.map_map]
      rfl
  · intro l hl
    obtain ⟨r, hr, rfl⟩ := List.mem_map.1 hl
    have hs := distancesLine_split r
    have : distancesLine r ≠ [] := by
      intro h0
      rw [h0] at hs
      exact h r hr (List.map_eq_nil_iff.1 hs.symm)
    simpa using this

/-- **C186, text.** The file of distances, read with correct rounding, gives the distances digit for digit. -/
theorem C186_digits (rows : List (List ℚ)) (h : ∀ r ∈ rows, r ≠ []) (hd : ∀ r ∈ rows, ∀ x ∈ r, IsDouble x) :
    readDistances (fun v => roundDouble v) (distancesText rows) = some (rows.map fun r => r.map fun (x : ℚ) => (x : ℝ)) := by
  rw [readDistances_text _ rows h]
  congr 1
  refine List.map_congr_left fun r hr => List.map_congr_left fun x hx => ?_
  obtain ⟨v, h1, h2⟩ := C155_number 18 (by norm_num) x (hd r hr x hx)
  rw [readFloat_fmtSciD 17] at h1
  rw [Option.some.inj h1]
  exact h2

/-- Different distances give different files. -/
theorem C186_injective (r s : List (List ℚ)) (hr : ∀ x ∈ r, x ≠ []) (hs : ∀ x ∈ s, x ≠ []) (hrd : ∀ x ∈ r, ∀ y ∈ x, IsDouble y)
    (hsd : ∀ x ∈ s, ∀ y ∈ x, IsDouble y) (h : distancesText r = distancesText s) : r = s := by
  have e := C186_digits r hr hrd
  rw [h, C186_digits s hs hsd] at e
  have inj : Function.Injective fun l : List ℚ => l.map fun x : ℚ => (x : ℝ) := List.map_injective_iff.2 Rat.cast_injective
  exact (List.map_injective_iff.2 inj (Option.some.inj e)).symm

/-- **C186, order.** The rows of the file are the LEDs in ascending order of their ids, though the array is listed from the last to the first. -/
theorem C186_order {D : Type} (dist : P3 → D) (pos : ℕ → P3) (leds ids : List ℕ) (h : ids = leds.reverse) (k : ℕ) :
    (distanceRows dist (ids.map pos))[k]? = leds[k]?.map fun l => dist (pos l) := by
  unfold distanceRows
  simp only [h, List.map_reverse, List.reverse_reverse, List.map_map, List.getElem?_map]
  rfl

theorem distancesName_inj {a b : ℕ} (h : distancesName a = distancesName b) : a = b := by
  unfold distancesName at h
  rw [List.append_assoc, List.append_assoc, List.append_cancel_left_eq, List.append_cancel_right_eq] at h
  exact natStr_inj h

/-! ### One command -/

variable {C : Type}

/-- The files after a command: `dist` and `coef` of an LED array and channel. -/
theorem DistanceJob.run_spec (j : DistanceJob C) (pairs : List (ℕ × ℕ)) (f : DistanceFiles C) (a : ℕ) :
    ((j.run pairs f).1.dist (distancesName a) = f.dist (distancesName a) ∨
      ∃ rows, j.rows a = .ok rows ∧ (j.run pairs f).1.dist (distancesName a) = some (distancesText rows)) ∧
    ∀ c, ((j.run pairs f).1.coef (a, c) = f.coef (a, c) ∨
      ∃ rows x, j.rows a = .ok rows ∧ j.solve rows a c = .ok x ∧ (j.run pairs f).1.coef (a, c) = some x ∧
        (j.run pairs f).1.dist (distancesName a) = some (distancesText rows)) := by
  induction pairs generalizing f with
  | nil => exact ⟨Or.inl rfl, fun _ => Or.inl rfl⟩
  | cons p rest ih =>
    cases hr : j.rows p.1 with
    | error e =>
      have e1 : j.run (p :: rest) f = (f, some e) := by simp only [DistanceJob.run, DistanceJob.one, hr]
      rw [e1]
      exact ⟨Or.inl rfl, fun _ => Or.inl rfl⟩
    | ok rows =>
      cases hc : j.solve rows p.1 p.2 with
      | error e =>
        have e1 : j.run (p :: rest) f = (f.writeDist p.1 rows, some e) := by simp only [DistanceJob.run, DistanceJob.one, hr, hc]
        rw [e1]
        refine ⟨?_, fun _ => Or.inl rfl⟩
        by_cases ha : a = p.1
        · right
          exact ⟨rows, by rw [ha]; exact hr, by unfold DistanceFiles.writeDist; simp only; rw [ha, if_pos rfl]⟩
        · left
          unfold DistanceFiles.writeDist
          simp only
          rw [if_neg fun h => ha (distancesName_inj h)]
      | ok x =>
        set g := (f.writeDist p.1 rows).writeCoef p x with hg
        have e1 : j.run (p :: rest) f = j.run rest g := by simp only [DistanceJob.run, DistanceJob.one, hr, hc, hg]
        rw [e1]
        obtain ⟨i1, i2⟩ := ih g
        have hgd : g.dist (distancesName a) = f.dist (distancesName a) ∨
            ∃ rows, j.rows a = .ok rows ∧ g.dist (distancesName a) = some (distancesText rows) := by
          by_cases ha : a = p.1
          · right
            exact ⟨rows, by rw [ha]; exact hr, by rw [hg]; unfold DistanceFiles.writeCoef DistanceFiles.writeDist; simp only; rw [ha, if_pos rfl]⟩
          · left
            rw [hg]
            unfold DistanceFiles.writeCoef DistanceFiles.writeDist
            simp only
            rw [if_neg fun h => ha (distancesName_inj h)]
        refine ⟨?_, fun c => ?_⟩
        · rcases i1 with i1 | i1
          · rw [i1]; exact hgd
          · exact Or.inr i1
        · rcases i2 c with i2 | i2
          · rw [i2]
            by_cases hp : (a, c) = p
            · right
              subst hp
              refine ⟨rows, x, hr, hc, ?_, ?_⟩
              · rw [hg]; unfold DistanceFiles.writeCoef; simp
              · have hgr : g.dist (distancesName a) = some (distancesText rows) := by
                  rw [hg]; unfold DistanceFiles.writeCoef DistanceFiles.writeDist; simp
                rcases i1 with i1 | ⟨rows', r1, r2⟩
                · rw [i1]; exact hgr
                · rw [hr] at r1
                  obtain rfl := Except.ok.inj r1
                  exact r2
            · left
              rw [hg]
              unfold DistanceFiles.writeCoef DistanceFiles.writeDist
              simp only
              rw [if_neg hp]
          · exact Or.inr i2

/-- **C186, one command.** A command that ends without an exception leaves, for every LED array and channel it was asked for, coefficients that were
calculated with the distances in the file. -/
theorem C186_command_partial (j : DistanceJob C) (pairs : List (ℕ × ℕ)) (f : DistanceFiles C) (h : (j.run pairs f).2 = none) :
    ∀ p ∈ pairs, ∃ rows x, j.rows p.1 = .ok rows ∧ j.solve rows p.1 p.2 = .ok x ∧ (j.run pairs f).1.coef p = some x ∧
      (j.run pairs f).1.dist (distancesName p.1) = some (distancesText rows) := by
  induction pairs generalizing f with
  | nil => intro p hp; cases hp
  | cons q rest ih =>
    intro p hp
    cases hr : j.rows q.1 with
    | error e => rw [show j.run (q :: rest) f = (f, some e) by simp only [DistanceJob.run, DistanceJob.one, hr]] at h; cases h
    | ok rows =>
      cases hc : j.solve rows q.1 q.2 with
      | error e =>
        rw [show j.run (q :: rest) f = (f.writeDist q.1 rows, some e) by simp only [DistanceJob.run, DistanceJob.one, hr, hc]] at h
        cases h
      | ok x =>
        have e1 : j.run (q :: rest) f = j.run rest ((f.writeDist q.1 rows).writeCoef q x) := by
          simp only [DistanceJob.run, DistanceJob.one, hr, hc]
        rw [e1] at h ⊢
        by_cases hm : p ∈ rest
        · exact ih _ h p hm
        · obtain rfl : p = q := by
            rcases List.mem_cons.1 hp with h' | h'
            · exact h'
            · exact absurd h' hm
          obtain ⟨s1, s2⟩ := j.run_spec rest ((f.writeDist p.1 rows).writeCoef p x) p.1
          have hd : ((f.writeDist p.1 rows).writeCoef p x).dist (distancesName p.1) = some (distancesText rows) := by
            unfold DistanceFiles.writeCoef DistanceFiles.writeDist; simp
          have hx : ((f.writeDist p.1 rows).writeCoef p x).coef p = some x := by unfold DistanceFiles.writeCoef; simp
          rcases s2 p.2 with s | ⟨rows', x', r1, r2, r3, r4⟩
          · refine ⟨rows, x, hr, hc, by rw [← hx]; exact s, ?_⟩
            rcases s1 with s1 | ⟨rows', r1, r2⟩
            · rw [s1]; exact hd
            · rw [hr] at r1
              obtain rfl := Except.ok.inj r1
              exact r2
          · exact ⟨rows', x', r1, r2, r3, r4⟩

/-! ### Several commands -/

/-- After any history of commands with the same geometry (and any options of reference images and solver), the file of distances belongs to all
files of coefficients of its array. -/
theorem C186_same_geometry_partial (geometry : ℕ → Except PyErr (List (List ℚ))) (cmds : List (DistanceJob C × List (ℕ × ℕ)))
    (hg : ∀ c ∈ cmds, c.1.rows = geometry) (a c : ℕ) (f : DistanceFiles C) (h0 : f.coef (a, c) = none)
    (hd : f.dist (distancesName a) = none) (x : C) (hx : (runCommands cmds f).coef (a, c) = some x) :
    ∃ rows, geometry a = .ok rows ∧ (runCommands cmds f).dist (distancesName a) = some (distancesText rows) ∧
      ∃ cmd ∈ cmds, cmd.1.solve rows a c = .ok x := by
  have key : ∀ (cmds : List (DistanceJob C × List (ℕ × ℕ))) (f : DistanceFiles C) (good : C → Prop),
      (∀ c ∈ cmds, c.1.rows = geometry) →
      (∀ d, f.dist (distancesName a) = some d → ∃ rows, geometry a = .ok rows ∧ d = distancesText rows) →
      (∀ x, f.coef (a, c) = some x → good x ∧ ∃ d, f.dist (distancesName a) = some d) →
      (∀ cmd ∈ cmds, ∀ rows x, geometry a = .ok rows → cmd.1.solve rows a c = .ok x → good x) →
      ∀ x, (runCommands cmds f).coef (a, c) = some x →
        good x ∧ ∃ rows, geometry a = .ok rows ∧ (runCommands cmds f).dist (distancesName a) = some (distancesText rows) := by
    intro cmds
    induction cmds with
    | nil =>
      intro f good _ h1 h2 _ x hx
      obtain ⟨g, d, hd⟩ := h2 x hx
      obtain ⟨rows, r1, r2⟩ := h1 d hd
      exact ⟨g, rows, r1, by rw [← r2]; exact hd⟩
    | cons cmd cmds ih =>
      intro f good hg h1 h2 h3 x hx
      obtain ⟨s1, s2⟩ := cmd.1.run_spec cmd.2 f a
      rw [hg cmd (by simp)] at s1 s2
      refine ih _ good (fun c hc => hg c (List.mem_cons_of_mem _ hc)) ?_ ?_ (fun c hc => h3 c (List.mem_cons_of_mem _ hc)) x hx
      · intro d hd
        rcases s1 with s1 | ⟨rows, r1, r2⟩
        · exact h1 d (by rw [← s1]; exact hd)
        · exact ⟨rows, r1, by rw [hd] at r2; exact Option.some.inj r2⟩
      · intro x hx
        rcases s2 c with s | ⟨rows, x', r1, r2, r3, r4⟩
        · obtain ⟨g, d, hd⟩ := h2 x (by rw [← s]; exact hx)
          refine ⟨g, ?_⟩
          rcases s1 with s1 | ⟨rows, r1, r2⟩
          · exact ⟨d, by rw [s1]; exact hd⟩
          · exact ⟨_, r2⟩
        · rw [r3] at hx
          obtain rfl := Option.some.inj hx
          exact ⟨h3 cmd (by simp) rows x' r1 r2, _, r4⟩
  obtain ⟨⟨rows, r1, cmd, r2, r3⟩, rows', r4, r5⟩ := key cmds f
    (fun x => ∃ rows, geometry a = .ok rows ∧ ∃ cmd ∈ cmds, cmd.1.solve rows a c = .ok x) hg
    (fun d h => by rw [hd] at h; cases h) (fun x h => by rw [h0] at h; cases h)
    (fun cmd hc rows x r1 r2 => ⟨rows, r1, cmd, hc, r2⟩) x hx
  rw [r1] at r4
  obtain rfl := Except.ok.inj r4
  exact ⟨rows, r1, r5, cmd, r2, r3⟩

/-- **C186, exact condition for the last command.** An LED array analysed before for channel `c` with the distances `rows`; a further command reaches
the array with the distances `rows'`, for other channels. The file of distances belongs to the coefficients of channel `c` exactly if the distances are
the same. -/
theorem C186_iff (j : DistanceJob C) (a c c' : ℕ) (hcc : c' ≠ c) (rows rows' : List (List ℚ)) (f : DistanceFiles C)
    (hr : ∀ x ∈ rows, x ≠ []) (hs : ∀ x ∈ rows', x ≠ []) (hrd : ∀ x ∈ rows, ∀ y ∈ x, IsDouble y) (hsd : ∀ x ∈ rows', ∀ y ∈ x, IsDouble y)
    (hj : j.rows a = .ok rows') :
    (j.run [(a, c')] f).1.coef (a, c) = f.coef (a, c) ∧
    ((j.run [(a, c')] f).1.dist (distancesName a) = some (distancesText rows) ↔ rows' = rows) := by
  have hd : (j.run [(a, c')] f).1.dist (distancesName a) = some (distancesText rows') := by
    cases hc : j.solve rows' a c' with
    | error e => simp [DistanceJob.run, DistanceJob.one, hj, hc, DistanceFiles.writeDist]
    | ok x => simp [DistanceJob.run, DistanceJob.one, hj, hc, DistanceFiles.writeDist, DistanceFiles.writeCoef]
  refine ⟨?_, ?_⟩
  · have hne : (a, c) ≠ (a, c') := fun h => hcc (Prod.mk.inj h).2.symm
    cases hc : j.solve rows' a c' with
    | error e => simp [DistanceJob.run, DistanceJob.one, hj, hc, DistanceFiles.writeDist]
    | ok x => simp [DistanceJob.run, DistanceJob.one, hj, hc, DistanceFiles.writeDist, DistanceFiles.writeCoef, hcc.symm]
  · rw [hd]
    constructor
    · intro h
      exact C186_injective rows' rows hs hr hsd hrd (Option.some.inj h)
    · rintro rfl
      rfl

/-- After any history of commands, coefficients of an array were calculated with the distances in its file. -/
def DistancesBelong : Prop := ∀ (C : Type) (cmds : List (DistanceJob C × List (ℕ × ℕ))) (a c : ℕ) (x : C) (text : Str),
  (runCommands cmds ⟨fun _ => none, fun _ => none⟩).coef (a, c) = some x →
  (runCommands cmds ⟨fun _ => none, fun _ => none⟩).dist (distancesName a) = some text →
  ∃ rows, text = distancesText rows ∧ ∃ cmd ∈ cmds, cmd.1.rows a = .ok rows ∧ cmd.1.solve rows a c = .ok x

/-- A camera one metre away, then two; coefficients are 1 per metre of distance. -/
def cameraAt (d : ℚ) : DistanceJob ℚ := ⟨fun _ => .ok [[d]], fun rows _ _ => .ok (rows.flatten.sum)⟩

/-- **C186 refuted**: the camera position is corrected and only channel 1 is analysed again. -/
theorem C186_false : ¬ DistancesBelong := by
  intro h
  have hd : (runCommands [(cameraAt 1, [(0, 0), (0, 1)]), (cameraAt 2, [(0, 1)])] ⟨fun _ => none, fun _ => none⟩).dist (distancesName 0) =
      some (distancesText [[2]]) := by
    simp [runCommands, DistanceJob.run, DistanceJob.one, cameraAt, DistanceFiles.writeDist, DistanceFiles.writeCoef]
  have hc : (runCommands [(cameraAt 1, [(0, 0), (0, 1)]), (cameraAt 2, [(0, 1)])] ⟨fun _ => none, fun _ => none⟩).coef (0, 0) = some 1 := by
    simp [runCommands, DistanceJob.run, DistanceJob.one, cameraAt, DistanceFiles.writeDist, DistanceFiles.writeCoef]
  obtain ⟨rows, ht, cmd, hm, h1, h2⟩ := h ℚ _ 0 0 1 _ hc hd
  simp only [List.mem_cons, List.not_mem_nil, or_false] at hm
  have d1 : IsDouble 1 := ⟨1, 0, by norm_num, by norm_num⟩
  have d2 : IsDouble 2 := ⟨2, 0, by norm_num, by norm_num⟩
  rcases hm with rfl | rfl
  · obtain rfl := Except.ok.inj h1
    have := C186_injective [[2]] [[1]] (by simp) (by simp) (by simpa using d2) (by simpa using d1) ht
    norm_num at this
  · obtain rfl := Except.ok.inj h1
    have := Except.ok.inj h2
    norm_num at this

-- two LEDs and two layers
example : distancesText [[1, 5 / 2], [0, 3]] =
    "1.000000000000000000e+00 2.500000000000000000e+00\n0.000000000000000000e+00 3.000000000000000000e+00\n".toList := by decide +kernel

end Ledsa
