import Verif.Props.Interrupted
/-
C164: exactly what steps 1 and 2 leave when they are killed, why step 2 does not repair it, and what is read from an index file that was
cut off.
-/
namespace Ledsa

variable {D : Type} [LinearOrder D] [Add D] [Mul D]

/-! ### Step 1 -/

/-- **C164 (step 1).** Step 1 killed while it writes the search areas leaves their beginning; killed after that, it leaves all of them but
the flag as it was. The index files stay as they are in any case. -/
theorem C164_step1 (maxLoc : Image ℚ → ℕ × ℕ) (m : Metric D) (d : ExtDisk) (j : Step1Job) (hj : j.table maxLoc ≠ []) (cut : ℕ) :
    ExtRun.exec maxLoc m d ⟨.step1 j, some (0, cut)⟩ = { d with areas := some ((tableText false (j.table maxLoc)).take cut) } ∧
    ExtRun.exec maxLoc m d ⟨.step1 j, some (1, cut)⟩ = { d with areas := some (tableText false (j.table maxLoc)) } ∧
    ∀ k, 2 ≤ k → ExtRun.exec maxLoc m d ⟨.step1 j, some (k, cut)⟩ =
      { d with areas := some (tableText false (j.table maxLoc)), flag := false } := by
  have hs : ExtCmd.script maxLoc m d (.step1 j) = [.areas (tableText false (j.table maxLoc)), .flag false] := by
    simp only [ExtCmd.script, step1Script, if_neg hj]
  refine ⟨?_, ?_, ?_⟩
  · simp only [ExtRun.exec, hs]; rfl
  · simp only [ExtRun.exec, hs]; rfl
  · intro k hk
    obtain ⟨k, rfl⟩ : ∃ l, k = l + 2 := ⟨k - 2, by omega⟩
    simp only [ExtRun.exec, hs]
    rw [List.take_of_length_le (by simp), List.getElem?_eq_none (by simp)]
    rfl

/-! ### Step 2 is not carried out again -/

/-- Invocations of step 2 alone, killed or not. -/
def Step2Only (rs : List ExtRun) : Prop := ∀ r ∈ rs, ∃ o, r.cmd = .step2 o

/-- **C164 (not repaired).** Once the flag is set no invocation of step 2 changes any file, whatever options it has and however often it is
tried. -/
theorem C164_step2_skipped (maxLoc : Image ℚ → ℕ × ℕ) (m : Metric D) (d : ExtDisk) (hd : d.flag = true) (rs : List ExtRun) (h : Step2Only rs) :
    runKilled maxLoc m d rs = d := by
  induction rs with
  | nil => rfl
  | cons r rs ih =>
    have e : r.exec maxLoc m d = d := by
      obtain ⟨o, ho⟩ := h r (by simp)
      unfold ExtRun.exec
      simp only [ho, ExtCmd.script, hd, if_true]
      cases r.kill with
      | none => rfl
      | some k => simp
    have := ih fun r hr => h r (List.mem_cons_of_mem _ hr)
    simp only [runKilled, List.foldl_cons, e] at this ⊢
    exact this

/-- **C164 (step 1 killed before it removes the flag).** The search areas are the new ones, numbered by brightness, the LED arrays those of
the earlier detection, and no invocation of step 2 changes this: step 3 combines both without a message. -/
theorem C164_mixed_false (maxLoc : Image ℚ → ℕ × ℕ) (m : Metric D) (d : ExtDisk) (hd : d.flag = true) (j : Step1Job)
    (hj : j.table maxLoc ≠ []) (cut : ℕ) (rs : List ExtRun) (h : Step2Only rs) (o : Step3Options) (arrays : List (List ℤ))
    (ha : loadArrays o.numArrays o.groups d.index = .ok arrays) :
    step3Input o (runKilled maxLoc m d (⟨.step1 j, some (1, cut)⟩ :: rs)) = .ok (j.table maxLoc, arrays) := by
  have e : runKilled maxLoc m d (⟨.step1 j, some (1, cut)⟩ :: rs) = { d with areas := some (tableText false (j.table maxLoc)) } := by
    have := C164_step2_skipped maxLoc m { d with areas := some (tableText false (j.table maxLoc)) } hd rs h
    simp only [runKilled, List.foldl_cons] at this ⊢
    rw [(C164_step1 maxLoc m d j hj cut).2.1]
    exact this
  rw [e]
  simp only [step3Input, bind, Except.bind, loadTable_text, ha]

/-! ### Step 2 killed while it writes the index files -/

theorem indexOps_take (ext : Str) (arrays : List (List ℕ)) (i : ℕ) (hi : i ≤ arrays.length) :
    (indexOps ext arrays).take i = indexOps ext (arrays.take i) := by
  unfold indexOps
  rw [← List.map_take, List.take_range, Nat.min_eq_left hi, List.length_take, Nat.min_eq_left hi]
  refine List.map_congr_left fun k hk => ?_
  rw [List.mem_range] at hk
  rw [List.getElem?_take_of_lt hk]

/-- **C164 (step 2).** Step 2 killed while it writes the index file of array `i`: the search areas are reordered and the flag is set, the
index files of the arrays before are new, that of array `i` is the beginning of the new one, all others are as they were. -/
theorem C164_step2 (maxLoc : Image ℚ → ℕ × ℕ) (m : Metric D) (d : ExtDisk) (o : Step2Options) (hd : d.flag = false) (text : Str)
    (ht : d.areas = some text) (t t' : LedTable) (hl : loadTable text = .ok t) (h2 : 2 ≤ t.length) (arrays : List (List ℕ))
    (ha : arraysOf m o t = .ok arrays) (hr : reorderSearchAreas t arrays = .ok t') (hne : t' ≠ []) (i : ℕ)
    (hi : i < (reorderIndices arrays).length) (cut : ℕ) :
    let d' := ExtRun.exec maxLoc m d ⟨.step2 o, some (i + 2, cut)⟩
    d'.areas = some (tableText true t') ∧ d'.flag = true ∧
    (∀ k (hk : k < i), d'.index (indexFileName k []) = some (indexFile ((reorderIndices arrays)[k]))) ∧
    d'.index (indexFileName i []) = some ((indexFile (reorderIndices arrays)[i]).take cut) ∧
    ∀ name, (∀ k ≤ i, name ≠ indexFileName k []) → d'.index name = d.index name := by
  set R := reorderIndices arrays with hR
  obtain ⟨rest, hs⟩ : ∃ rest, ExtCmd.script maxLoc m d (.step2 o) =
      .areas (tableText true t') :: .flag true :: (indexOps [] R ++ rest) := by
    refine ⟨match o.groups with | none => [] | some g => indexOps "_merge".toList (mergeArrays R g), ?_⟩
    simp only [ExtCmd.script, hd, ht, hl, if_neg (show ¬ t.length ≤ 1 by omega), matchScript, ha, hr, if_neg hne]
    simp only [Bool.false_eq_true, if_false, ← hR, List.cons_append, List.nil_append]
    rfl
  have hlen : (indexOps [] R).length = R.length := by simp [indexOps]
  have e : ExtRun.exec maxLoc m d ⟨.step2 o, some (i + 2, cut)⟩ =
      DiskOp.exec ⟨some (tableText true t'), true, writeIndexFiles [] (R.take i) d.index⟩
        (.index (indexFileName i []) ((indexFile R[i]).take cut)) := by
    simp only [ExtRun.exec, hs, List.take_succ_cons, List.getElem?_cons_succ]
    rw [List.take_append_of_le_length (by omega), indexOps_take [] R i (by omega), List.getElem?_append_left (by omega)]
    have : (indexOps [] R)[i]? = some (.index (indexFileName i []) (indexFile R[i])) := by
      simp [indexOps, hi]
    rw [this]
    simp only [Option.map_some, DiskOp.torn, Option.getD_some, List.cons_append, List.foldl_cons, List.foldl_append, List.foldl_nil,
      exec_indexOps]
    rfl
  intro d'
  have hd' : d' = _ := e
  refine ⟨by rw [hd']; rfl, by rw [hd']; rfl, ?_, by rw [hd']; simp [DiskOp.exec, hR], ?_⟩
  · intro k hk
    rw [hd']
    simp only [DiskOp.exec]
    rw [if_neg fun h => absurd ((C20_file_names k i).1 [] h) (by omega), writeIndexFiles_get,
      List.getElem?_take_of_lt hk, List.getElem?_eq_getElem (by omega)]
  · intro name hn
    rw [hd']
    simp only [DiskOp.exec]
    rw [if_neg (hn i (Nat.le_refl i))]
    unfold writeIndexFiles
    have : (List.range (R.take i).length).find? (fun (j : ℕ) => indexFileName j [] = name) = none := by
      rw [List.find?_eq_none]
      intro j hj
      rw [List.mem_range, List.length_take] at hj
      simp only [decide_eq_true_eq]
      exact fun h => hn j (by omega) h.symm
    rw [this]

/-! ### Reading an index file that was cut off -/

/-- **C164 (cut index file).** From the beginning of an index file only the first LEDs of the array are read, and of the last one read
final digits of its number can be missing. -/
theorem C164_index_torn (a : List ℕ) (cut : ℕ) : ∃ k, readIndexFile ((indexFile a).take cut) = .ok ((a.reverse.take k).map (Nat.cast : ℕ → ℤ)) ∨
    ∃ l e, a.reverse[k]? = some l ∧
      readIndexFile ((indexFile a).take cut) = .ok ((a.reverse.take k).map (Nat.cast : ℕ → ℤ) ++ [((l / 10 ^ e : ℕ) : ℤ)]) := by
  have hnl : ∀ n : ℕ, '\n' ∉ natStr n := fun n hm => by
    have := natStr_isDigit n _ hm
    revert this; decide
  have hne : ∀ n : ℕ, natStr n ≠ [] := natStr_ne_nil
  have htext : indexFile a = ((a.reverse.map natStr).map fun l => l ++ ['\n']).flatten := by
    unfold indexFile; rw [List.map_map]; rfl
  obtain ⟨k, pre, h1, h2, h3⟩ := take_textLines (a.reverse.map natStr) cut
  have hpre : '\n' ∉ pre := by
    rcases h3 with rfl | ⟨l, hl, hp⟩
    · simp
    · have := List.mem_of_getElem? hl
      obtain ⟨n, _, rfl⟩ := List.mem_map.1 this
      exact fun hm => hnl n (hp.subset hm)
  have hlines : ∀ l ∈ (a.reverse.take k).map natStr, '\n' ∉ l := by
    intro l hl
    obtain ⟨n, _, rfl⟩ := List.mem_map.1 hl
    exact hnl n
  have hread : ∀ u : List ℕ, (u.map natStr).mapM pyInt = .ok (u.map (Nat.cast : ℕ → ℤ)) := by
    intro u
    induction u with
    | nil => rfl
    | cons n u ih => rw [List.map_cons, List.mapM_cons, pyInt_natStr, ih]; rfl
  have hfil : ∀ u : List ℕ, (u.map natStr).filter (fun l => decide (l ≠ [])) = u.map natStr := by
    intro u
    rw [List.filter_eq_self]
    intro l hl
    obtain ⟨n, _, rfl⟩ := List.mem_map.1 hl
    simpa using hne n
  refine ⟨k, ?_⟩
  rw [htext, h1]
  unfold readIndexFile
  rw [← List.map_take, splitChar_textLines_end _ hlines pre hpre, List.filter_append, hfil]
  by_cases hp0 : pre = []
  · left
    rw [hp0]
    simp only [ne_eq, not_true_eq_false, decide_false, List.filter_cons, Bool.false_eq_true, if_false, List.filter_nil, List.append_nil, hread]
  · right
    obtain ⟨l, hl, hp⟩ := h3.resolve_left hp0
    rw [List.getElem?_map] at hl
    cases hk : a.reverse[k]? with
    | none => rw [hk] at hl; cases hl
    | some n =>
      rw [hk] at hl
      simp only [Option.map_some, Option.some.injEq] at hl
      subst hl
      obtain ⟨e, rfl⟩ := natStr_prefix n pre hp0 hp
      refine ⟨n, e, rfl, ?_⟩
      have : [natStr (n / 10 ^ e)].filter (fun l => decide (l ≠ [])) = [n / 10 ^ e].map natStr := by
        simp [hp0]
      rw [this, ← List.map_append, hread]
      simp

/-- **C164 (cut index file, refuted in general).** That an index file which was cut off is refused, or gives only LEDs of the array: of the
array with the LEDs 9 and 10, whose file begins with 10, LED 1 is read. -/
theorem C164_index_false : ¬ ∀ (a : List ℕ) (cut : ℕ) (r : List ℤ), readIndexFile ((indexFile a).take cut) = .ok r → ∀ l ∈ r, l ∈ a.map (Nat.cast : ℕ → ℤ) := by
  intro h
  have := h [9, 10] 1 [1] (by decide +kernel) 1 (by simp)
  revert this
  decide

/-- A step 2 that was killed while it wrote the index file, and the same step 2 once more: step 3 finds one LED instead of two. -/
example : (step3Input ⟨1, none⟩ (runKilled firstMaxLoc pairMetric .empty
    [⟨.step1 pairJob, none⟩, ⟨.step2 pairOptions, some (2, 2)⟩, ⟨.step2 pairOptions, none⟩])).toOption.map (·.2) = some [[1]] ∧
    (step3Input ⟨1, none⟩ (runKilled firstMaxLoc pairMetric .empty
    [⟨.step1 pairJob, none⟩, ⟨.step2 pairOptions, none⟩])).toOption.map (·.2) = some [[1, 0]] := by
  refine ⟨?_, ?_⟩ <;> decide +kernel

/-- Step 1 killed before it removes the flag. -/
example : (runKilled firstMaxLoc pairMetric .empty
    [⟨.step1 pairJob, none⟩, ⟨.step2 pairOptions, none⟩, ⟨.step1 pairJob, some (1, 0)⟩]).flag = true ∧
    (runKilled firstMaxLoc pairMetric .empty [⟨.step1 pairJob, none⟩, ⟨.step2 pairOptions, none⟩, ⟨.step1 pairJob, none⟩]).flag = false := by
  refine ⟨?_, ?_⟩ <;> decide +kernel

end Ledsa
