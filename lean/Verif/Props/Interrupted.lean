import Verif.Model.Interrupted
import Verif.Props.Session
import Verif.Props.Rename
import Verif.Props.Prompts
/-
C156: invocations of steps 1 and 2 that are killed at any moment, and what repairs the files.
-/
namespace Ledsa

variable {D : Type} [LinearOrder D] [Add D] [Mul D]

/-! ### Complete runs -/

theorem exec_indexOps (ext : Str) (arrays : List (List ℕ)) (d : ExtDisk) :
    (indexOps ext arrays).foldl DiskOp.exec d = { d with index := writeIndexFiles ext arrays d.index } := by
  have key : ∀ (n : ℕ), ((List.range n).map fun i => DiskOp.index (indexFileName i ext) (indexFile ((arrays[i]?).getD []))).foldl DiskOp.exec d =
      { d with index := fun name => match (List.range n).find? fun (i : ℕ) => indexFileName i ext = name with
        | some i => some (indexFile ((arrays[i]?).getD []))
        | none => d.index name } := by
    intro n
    induction n with
    | zero => rfl
    | succ n ih =>
      rw [List.range_succ, List.map_append, List.foldl_append, ih]
      simp only [List.map_cons, List.map_nil, List.foldl_cons, List.foldl_nil, DiskOp.exec]
      congr 1
      funext name
      rw [List.find?_append]
      by_cases h : name = indexFileName n ext
      · rw [if_pos h]
        have : (List.range n).find? (fun (i : ℕ) => indexFileName i ext = name) = none := by
          rw [List.find?_eq_none]
          intro i hi
          simp only [decide_eq_true_eq]
          intro he
          have := (C20_file_names i n).1 ext (he.trans h)
          rw [List.mem_range] at hi
          omega
        rw [this]
        simp [h]
      · rw [if_neg h]
        have h' : ¬ indexFileName n ext = name := fun e => h e.symm
        cases (List.range n).find? (fun (i : ℕ) => indexFileName i ext = name) with
        | none => simp [h']
        | some i => simp
  unfold indexOps writeIndexFiles
  exact key arrays.length

theorem exec_matchScript (m : Metric D) (o : Step2Options) (t : LedTable) (d : ExtDisk) :
    (matchScript m o t).foldl DiskOp.exec d = (matchTable m o t d).1 := by
  unfold matchScript matchTable
  cases arraysOf m o t with
  | error e => rfl
  | ok arrays =>
    simp only
    cases reorderSearchAreas t arrays with
    | error e => rfl
    | ok t' =>
      simp only
      by_cases h : t' = []
      · rw [if_pos h, if_pos h]; rfl
      · rw [if_neg h, if_neg h, List.foldl_append, List.foldl_append, exec_indexOps]
        unfold step2Files
        cases o.groups with
        | none => rfl
        | some g => simp only; rw [exec_indexOps]; rfl

theorem exec_step1Script (t : LedTable) (d : ExtDisk) : (step1Script t).foldl DiskOp.exec d = (runStep1 t d).1 := by
  unfold step1Script runStep1
  simp only
  by_cases h : t = []
  · rw [if_pos h, if_pos h]; rfl
  · rw [if_neg h, if_neg h]; rfl

/-- The changes one after the other are the effect of the invocation. -/
theorem exec_script (maxLoc : Image ℚ → ℕ × ℕ) (m : Metric D) (d : ExtDisk) (c : ExtCmd) :
    (c.script maxLoc m d).foldl DiskOp.exec d = c.run maxLoc m d := by
  cases c with
  | step1 j => exact exec_step1Script _ d
  | step2 o =>
    unfold ExtCmd.script ExtCmd.run runStep2
    simp only
    split
    · rfl
    · cases d.areas with
      | none => rfl
      | some text =>
        simp only
        cases loadTable text with
        | error e => rfl
        | ok t =>
          simp only
          split
          · rfl
          · exact exec_matchScript m o t d
  | steps12 j o =>
    unfold ExtCmd.script ExtCmd.run runSteps12
    simp only
    rw [List.foldl_append, exec_step1Script]
    unfold runStep1
    simp only
    by_cases h : j.table maxLoc = []
    · rw [if_pos h, if_pos h]; rfl
    · rw [if_neg h, if_neg h]
      simp only [Bool.false_eq_true, if_false]
      exact exec_matchScript m o _ _

/-! ### Specification: what is known about the work -/

/-- What is known after an invocation: nothing after a kill, except that matched LEDs are not touched by step 2; after a complete step 1
everything is known again. -/
def knownAfter (maxLoc : Image ℚ → ℕ × ℕ) (m : Metric D) (s : Option Stage) (r : ExtRun) : Option Stage :=
  match r.kill, r.cmd with
  | none, .step2 o => s.map fun s => s.after maxLoc m (.step2 o)
  | none, c => some (Stage.after maxLoc m .fresh c)
  | some _, .step2 _ => match s with
    | some (.matched t arrays groups) => some (.matched t arrays groups)
    | _ => none
  | some _, _ => none

/-- What is known after a sequence of invocations. -/
def knownStage (maxLoc : Image ℚ → ℕ × ℕ) (m : Metric D) (s : Option Stage) (rs : List ExtRun) : Option Stage := rs.foldl (knownAfter maxLoc m) s

theorem after_step1_indep (maxLoc : Image ℚ → ℕ × ℕ) (m : Metric D) (d : ExtDisk) (c : ExtCmd) (hc : ∀ o, c ≠ .step2 o) :
    Agrees (c.run maxLoc m d) (Stage.after maxLoc m .fresh c) := by
  cases c with
  | step1 j => exact runStep1_agrees maxLoc j d
  | step2 o => exact absurd rfl (hc o)
  | steps12 j o =>
    have h1 := runStep1_agrees maxLoc j d
    unfold ExtCmd.run Stage.after runSteps12
    simp only
    by_cases ht : j.table maxLoc = []
    · have e : runStep1 (j.table maxLoc) d = ({ d with areas := some (tableText false (j.table maxLoc)) }, .error .indexError) := by
        unfold runStep1; simp only; rw [if_pos ht]
      rw [e] at h1 ⊢
      simp only
      unfold Stage.detect at h1 ⊢
      rw [if_pos ht] at h1 ⊢
      exact h1
    · have e : runStep1 (j.table maxLoc) d = ({ d with areas := some (tableText false (j.table maxLoc)), flag := false }, .ok ()) := by
        unfold runStep1; simp only; rw [if_neg ht]
      rw [e] at h1 ⊢
      simp only [Bool.false_eq_true, if_false]
      unfold Stage.detect at h1 ⊢
      rw [if_neg ht] at h1 ⊢
      exact matchTable_agrees m o _ _ h1

theorem exec_known (maxLoc : Image ℚ → ℕ × ℕ) (m : Metric D) (s : Option Stage) (d : ExtDisk) (h : ∀ x, s = some x → Agrees d x) (r : ExtRun) :
    ∀ x, knownAfter maxLoc m s r = some x → Agrees (r.exec maxLoc m d) x := by
  obtain ⟨c, kill⟩ := r
  intro x hx
  cases kill with
  | none =>
    have e : ExtRun.exec maxLoc m d ⟨c, none⟩ = c.run maxLoc m d := exec_script maxLoc m d c
    rw [e]
    cases c with
    | step1 j =>
      obtain rfl := Option.some.inj hx
      exact after_step1_indep maxLoc m d _ (by intro o h; cases h)
    | steps12 j o =>
      obtain rfl := Option.some.inj hx
      exact after_step1_indep maxLoc m d _ (by intro o h; cases h)
    | step2 o =>
      cases s with
      | none => cases hx
      | some s =>
        obtain rfl := Option.some.inj hx
        exact run_agrees maxLoc m s d (h s rfl) (.step2 o)
  | some kc =>
    cases c with
    | step1 j => cases hx
    | steps12 j o => cases hx
    | step2 o =>
      cases s with
      | none => cases hx
      | some s =>
        cases s with
        | fresh => cases hx
        | detected t => cases hx
        | spoilt => cases hx
        | matched t arrays groups =>
          obtain rfl := Option.some.inj hx
          have ha := h _ rfl
          obtain ⟨t', files, h1, h2, h3⟩ := ha
          have e : ExtRun.exec maxLoc m d ⟨.step2 o, some kc⟩ = d := by
            unfold ExtRun.exec ExtCmd.script
            simp only [h2, if_true]
            simp
          rw [e]
          exact ⟨t', files, h1, h2, h3⟩

/-! ### C156 -/

/-- **C156 (what is known is so).** Begin with any files, invoke steps 1 and 2 in any order, let any of these invocations be killed at any
moment: after the next complete step 1 the files are again those of the work done since. -/
theorem C156_known (maxLoc : Image ℚ → ℕ × ℕ) (m : Metric D) (d : ExtDisk) (rs : List ExtRun) (s : Stage)
    (h : knownStage maxLoc m none rs = some s) : Agrees (runKilled maxLoc m d rs) s := by
  have key : ∀ (rs : List ExtRun) (s : Option Stage) (d : ExtDisk), (∀ x, s = some x → Agrees d x) →
      ∀ x, knownStage maxLoc m s rs = some x → Agrees (runKilled maxLoc m d rs) x := by
    intro rs
    induction rs with
    | nil => intro s d hs x hx; exact hs x hx
    | cons r rs ih => intro s d hs; exact ih _ _ (exec_known maxLoc m s d hs r)
  exact key rs none d (by intro x hx; cases hx) s h

/-- **C156 (repair).** Whatever killed invocations have left, damaged files included: after steps 1 and 2 have been carried out completely,
step 3 measures the same as in a new directory. -/
theorem C156_repair (maxLoc : Image ℚ → ℕ × ℕ) (m : Metric D) (d : ExtDisk) (rs : List ExtRun) (j : Step1Job) (o : Step2Options) (later : List ExtRun)
    (hl : ∀ r ∈ later, ∃ o', r.cmd = .step2 o') (t : LedTable) (arrays : List (List ℕ)) (groups : Option (List (List ℤ)))
    (hs : Stage.ofHistory maxLoc m [.steps12 j o] = .matched t arrays groups) (o3 : Step3Options) (ho : FitOptions arrays groups o3)
    (photo : Image ℚ) (R : ℕ) (fit : Bool) (skip : ℕ) :
    step3Rows o3 photo R fit skip (runKilled maxLoc m d (rs ++ ⟨.steps12 j o, none⟩ :: later)) =
      step3Rows o3 photo R fit skip (runHistory maxLoc m .empty [.steps12 j o]) := by
  have hk : knownStage maxLoc m none (rs ++ ⟨.steps12 j o, none⟩ :: later) = some (.matched t arrays groups) := by
    unfold knownStage
    rw [List.foldl_append, List.foldl_cons]
    have e : ∀ s, knownAfter maxLoc m s ⟨.steps12 j o, none⟩ = some (.matched t arrays groups) := fun s => congrArg some hs
    rw [e]
    clear hs
    induction later with
    | nil => rfl
    | cons r later ih =>
      obtain ⟨o', ho'⟩ := hl r (by simp)
      have : knownAfter maxLoc m (some (.matched t arrays groups)) r = some (.matched t arrays groups) := by
        obtain ⟨c, kill⟩ := r
        simp only at ho'
        subst ho'
        cases kill <;> rfl
      rw [List.foldl_cons, this]
      exact ih fun r hr => hl r (List.mem_cons_of_mem _ hr)
  have h1 := C156_known maxLoc m d _ _ hk
  have h2 := history_agrees maxLoc m [.steps12 j o]
  rw [hs] at h2
  obtain ⟨t1, a1, _, _, a4⟩ := step3Rows_matched t arrays groups o3 ho _ h1 photo R fit skip
  obtain ⟨t2, b1, _, _, b4⟩ := step3Rows_matched t arrays groups o3 ho _ h2 photo R fit skip
  rw [a1] at b1
  obtain rfl := Except.ok.inj b1
  rw [a4, b4]

/-- **C156 (repair in two sessions).** Likewise with step 1 and step 2 in invocations of their own. -/
theorem C156_repair_sessions (maxLoc : Image ℚ → ℕ × ℕ) (m : Metric D) (d : ExtDisk) (rs : List ExtRun) (j : Step1Job) (o : Step2Options)
    (t : LedTable) (arrays : List (List ℕ)) (groups : Option (List (List ℤ)))
    (hs : Stage.ofHistory maxLoc m [.step1 j, .step2 o] = .matched t arrays groups) (o3 : Step3Options) (ho : FitOptions arrays groups o3)
    (photo : Image ℚ) (R : ℕ) (fit : Bool) (skip : ℕ) :
    step3Rows o3 photo R fit skip (runKilled maxLoc m d (rs ++ [⟨.step1 j, none⟩, ⟨.step2 o, none⟩])) =
      step3Rows o3 photo R fit skip (runHistory maxLoc m .empty [.step1 j, .step2 o]) := by
  have hk : knownStage maxLoc m none (rs ++ [⟨.step1 j, none⟩, ⟨.step2 o, none⟩]) = some (.matched t arrays groups) := by
    unfold knownStage
    rw [List.foldl_append]
    exact congrArg some hs
  have h1 := C156_known maxLoc m d _ _ hk
  have h2 := history_agrees maxLoc m [.step1 j, .step2 o]
  rw [hs] at h2
  obtain ⟨t1, a1, _, _, a4⟩ := step3Rows_matched t arrays groups o3 ho _ h1 photo R fit skip
  obtain ⟨t2, b1, _, _, b4⟩ := step3Rows_matched t arrays groups o3 ho _ h2 photo R fit skip
  rw [a1] at b1
  obtain rfl := Except.ok.inj b1
  rw [a4, b4]

/-- **C156 (killed step 2 refuted).** If step 2 is killed before it sets the flag, the same step 2 again goes through without any message and
step 3 exchanges the LEDs. -/
theorem C156_again_false : ¬ ∀ (j : Step1Job) (o : Step2Options) (o3 : Step3Options) (photo : Image ℚ) (k : ℕ × ℕ) (rows rows' : List (ℕ × ℕ × Measured ℚ)),
    step3Rows o3 photo 1 false 0 (runKilled firstMaxLoc pairMetric .empty [⟨.step1 j, none⟩, ⟨.step2 o, none⟩]) = .ok rows →
    step3Rows o3 photo 1 false 0 (runKilled firstMaxLoc pairMetric .empty [⟨.step1 j, none⟩, ⟨.step2 o, some k⟩, ⟨.step2 o, none⟩]) = .ok rows' →
    rows = rows' := by
  intro h
  have e1 : (step3Rows ⟨1, none⟩ pairImage 1 false 0
      (runKilled firstMaxLoc pairMetric .empty [⟨.step1 pairJob, none⟩, ⟨.step2 pairOptions, none⟩])).toOption =
    some [(1, 0, ⟨9, 9 / 4, 9⟩), (0, 0, ⟨7, 7 / 4, 7⟩)] := by decide +kernel
  have e2 : (step3Rows ⟨1, none⟩ pairImage 1 false 0
      (runKilled firstMaxLoc pairMetric .empty [⟨.step1 pairJob, none⟩, ⟨.step2 pairOptions, some (1, 0)⟩, ⟨.step2 pairOptions, none⟩])).toOption =
    some [(1, 0, ⟨7, 7 / 4, 7⟩), (0, 0, ⟨9, 9 / 4, 9⟩)] := by decide +kernel
  have conv : ∀ {x : Except PyErr (List (ℕ × ℕ × Measured ℚ))} {r}, x.toOption = some r → x = .ok r := by
    intro x r h
    cases x with
    | error e => cases h
    | ok v => simp only [Except.toOption, Option.some.injEq] at h; rw [h]
  have := h pairJob pairOptions ⟨1, none⟩ pairImage (1, 0) _ _ (conv e1) (conv e2)
  revert this
  decide +kernel

/-! ### Torn files -/

theorem take_textLines (ls : List Str) : ∀ n : ℕ, ∃ k pre, ((ls.map fun l => l ++ ['\n']).flatten).take n =
    ((ls.take k).map fun l => l ++ ['\n']).flatten ++ pre ∧ k ≤ ls.length ∧ (pre = [] ∨ ∃ l, ls[k]? = some l ∧ pre <+: l) := by
  induction ls with
  | nil => intro n; exact ⟨0, [], by simp, le_rfl, Or.inl rfl⟩
  | cons l ls ih =>
    intro n
    rw [List.map_cons, List.flatten_cons]
    by_cases hn : n ≤ l.length
    · refine ⟨0, l.take n, ?_, by simp, Or.inr ⟨l, rfl, List.take_prefix _ _⟩⟩
      rw [List.append_assoc, List.take_append_of_le_length hn]
      rfl
    · obtain ⟨k, pre, h1, h2, h3⟩ := ih (n - (l ++ ['\n']).length)
      refine ⟨k + 1, pre, ?_, by simp [h2], ?_⟩
      · rw [List.take_append, List.take_of_length_le (by simp; omega), h1, List.take_succ_cons, List.map_cons, List.flatten_cons]
        simp only [List.append_assoc]
      · simpa using h3

theorem splitChar_textLines_end (ls : List Str) (h : ∀ l ∈ ls, '\n' ∉ l) (pre : Str) (hp : '\n' ∉ pre) :
    splitChar '\n' ((ls.map fun l => l ++ ['\n']).flatten ++ pre) = ls ++ [pre] := by
  induction ls with
  | nil => exact splitChar_of_notMem hp
  | cons l ls ih =>
    rw [List.map_cons, List.flatten_cons, List.append_assoc, List.append_assoc, List.singleton_append, splitChar_append (h l (by simp)),
      ih fun x hx => h x (List.mem_cons_of_mem _ hx)]
    rfl

theorem natStr_prefix (n : ℕ) : ∀ p : Str, p ≠ [] → p <+: natStr n → ∃ e, p = natStr (n / 10 ^ e) := by
  induction n using Nat.strongRecOn with
  | _ n ih =>
    intro p hp h
    by_cases he : p = natStr n
    · exact ⟨0, by simpa using he⟩
    · rw [natStr_eq] at h he
      split at h
      · rename_i hn
        rw [if_pos hn] at he
        obtain ⟨s, hs⟩ := h
        exfalso
        cases p with
        | nil => exact hp rfl
        | cons c p =>
          simp only [List.cons_append, List.cons.injEq, List.append_eq_nil_iff] at hs
          apply he
          rw [hs.1, hs.2.1]
      · rename_i hn
        rw [if_neg hn] at he
        rcases List.prefix_concat_iff.1 h with h | h
        · exact absurd h he
        · obtain ⟨e, h⟩ := ih (n / 10) (by omega) p hp h
          exact ⟨e + 1, by rw [h, Nat.div_div_eq_div_mul, pow_succ, Nat.mul_comm]⟩

theorem prefix_field {c : Char} : ∀ (a A r R : Str), c ∉ a → c ∉ A → a ++ c :: r <+: A ++ c :: R → a = A ∧ r <+: R
  | [], [], r, R, _, _, h => ⟨rfl, by simpa using h⟩
  | [], x :: A, r, R, _, hA, h => by
    simp only [List.nil_append, List.cons_append, List.cons_prefix_cons] at h
    exact absurd (h.1 ▸ List.mem_cons_self) hA
  | x :: a, [], r, R, ha, _, h => by
    simp only [List.nil_append, List.cons_append, List.cons_prefix_cons] at h
    exact absurd (h.1 ▸ List.mem_cons_self) ha
  | x :: a, y :: A, r, R, ha, hA, h => by
    simp only [List.cons_append, List.cons_prefix_cons] at h
    obtain ⟨h1, h2⟩ := prefix_field a A r R (fun m => ha (List.mem_cons_of_mem _ m)) (fun m => hA (List.mem_cons_of_mem _ m)) h.2
    exact ⟨by rw [h.1, h1], h2⟩

/-- A line of a table that was cut off: an error, or only digits of the column are missing. -/
theorem areaRow_torn (x y z : ℤ) (hz : 0 ≤ z) (pre : Str) (hpre : pre <+: joinChar ',' [intStr x, intStr y, intStr z]) (a : ℤ × ℤ × ℤ)
    (h : areaRow (splitChar ',' pre) = .ok a) : ∃ e : ℕ, a = (x, y, z / 10 ^ e) := by
  have hnum : ∀ v : ℤ, ',' ∉ intStr v := fun v hm => by
    have := intStr_chars v ',' hm
    revert this; decide
  have hj := joinChar_splitChar ',' pre
  have hno : ∀ f ∈ splitChar ',' pre, ',' ∉ f := fun f hf => splitChar_parts hf
  generalize splitChar ',' pre = fs at h hj hno
  unfold areaRow at h
  split at h
  · rename_i f g c
    have e : f ++ ',' :: (g ++ ',' :: c) <+: intStr x ++ ',' :: (intStr y ++ ',' :: intStr z) := by
      have h1 : joinChar ',' [f, g, c] = f ++ ',' :: (g ++ ',' :: c) := by simp [joinChar]
      have h2 : joinChar ',' [intStr x, intStr y, intStr z] = intStr x ++ ',' :: (intStr y ++ ',' :: intStr z) := by simp [joinChar]
      rw [← h1, ← h2, hj]
      exact hpre
    obtain ⟨rfl, e1⟩ := prefix_field _ _ _ _ (hno f (by simp)) (hnum x) e
    obtain ⟨rfl, e2⟩ := prefix_field _ _ _ _ (hno g (by simp)) (hnum y) e1
    simp only [pyInt_intStr, bind, Except.bind] at h
    have hc : c ≠ [] := by
      rintro rfl
      have : pyInt [] = .error .valueError := by decide
      rw [this] at h
      cases h
    obtain ⟨n, rfl⟩ := Int.eq_ofNat_of_zero_le hz
    have hs : intStr (n : ℤ) = natStr n := by simp [intStr]
    rw [hs] at e2
    obtain ⟨k, rfl⟩ := natStr_prefix n c hc e2
    rw [pyInt_natStr] at h
    refine ⟨k, ?_⟩
    simp only [Except.ok.injEq] at h
    rw [← h]
    simp
  · cases h

/-- **C156 (torn).** A table of search areas of which only the beginning was written is refused, or LEDs at its end are missing, or of the
last LED final digits of the column are missing; nothing else can be read from it. -/
theorem C156_torn (b : Bool) (t : LedTable) (hcol : ∀ l ∈ t, 0 ≤ l.2.2) (cut : ℕ) (t' : LedTable) (h : loadTable ((tableText b t).take cut) = .ok t') :
    ∃ k, t' = t.take k ∨ ∃ l e, t[k]? = some l ∧ t' = t.take k ++ [(l.1, l.2.1, l.2.2 / 10 ^ e)] := by
  have hhead : ∃ s : Str, '\n' ∉ s ∧ (if b then "# LED id (reordered), pixel position x, pixel position y\n".toList
    else "# LED id, pixel position x, pixel position y\n".toList) = '#' :: s ++ ['\n'] := by
    cases b
    · exact ⟨" LED id, pixel position x, pixel position y".toList, by decide +kernel, by decide +kernel⟩
    · exact ⟨" LED id (reordered), pixel position x, pixel position y".toList, by decide +kernel, by decide +kernel⟩
  obtain ⟨s, hs, hh⟩ := hhead
  let line : ℕ × ℤ × ℤ → Str := fun a => joinChar ',' [intStr a.1, intStr a.2.1, intStr a.2.2]
  have htext : tableText b t = ((('#' :: s) :: t.map line).map fun l => l ++ ['\n']).flatten := by
    unfold tableText areasText
    rw [hh, List.map_cons, List.flatten_cons, List.map_map, List.map_map]
    rfl
  have hline : ∀ (a : ℕ × ℤ × ℤ) (c : Char), isNumChar c = false → c ≠ ',' → c ∉ line a := by
    intro a c hc hne hm
    rcases joinChar_chars _ _ c hm with h | ⟨f, hf, h⟩
    · exact hne h
    · simp only [List.mem_cons, List.not_mem_nil, or_false] at hf
      rcases hf with rfl | rfl | rfl <;> rw [intStr_chars _ c h] at hc <;> cases hc
  have hnl : ∀ l ∈ ('#' :: s) :: t.map line, '\n' ∉ l := by
    intro l hl
    rcases List.mem_cons.1 hl with rfl | hl
    · intro hm
      rcases List.mem_cons.1 hm with h | h
      · revert h; decide
      · exact hs h
    · obtain ⟨a, _, rfl⟩ := List.mem_map.1 hl
      exact hline a '\n' (by decide) (by decide)
  obtain ⟨k, pre, h1, h2, h3⟩ := take_textLines (('#' :: s) :: t.map line) cut
  have hpre : '\n' ∉ pre := by
    rcases h3 with rfl | ⟨l, hl, hp⟩
    · simp
    · exact fun hm => hnl l (List.mem_of_getElem? hl) (hp.subset hm)
  rw [htext, h1] at h
  unfold loadTable loadAreas at h
  rw [splitChar_textLines_end _ (fun l hl => hnl l (List.mem_of_mem_take hl)) pre hpre] at h
  cases k with
  | zero =>
    refine ⟨0, Or.inl ?_⟩
    have e : loadCsv [pre] = [] := by
      rcases h3 with rfl | ⟨l, hl, hp⟩
      · rfl
      · simp only [List.getElem?_cons_zero, Option.some.injEq] at hl
        subst hl
        cases pre with
        | nil => rfl
        | cons c pre =>
          rw [List.cons_prefix_cons] at hp
          rw [hp.1, loadCsv_comment]; rfl
    rw [List.take_zero, List.nil_append, e] at h
    simp only [List.mapM_nil, pure, Except.pure, Except.map, List.map_nil, Except.ok.injEq] at h
    rw [← h, List.take_zero]
  | succ k =>
    refine ⟨k, ?_⟩
    rw [List.take_succ_cons, List.cons_append, loadCsv_comment, ← List.map_take] at h
    have hrows : ∀ l ∈ (t.take k).map line, '#' ∉ l ∧ l ≠ [] := by
      intro l hl
      obtain ⟨a, _, rfl⟩ := List.mem_map.1 hl
      refine ⟨hline a '#' (by decide) (by decide), ?_⟩
      simp only [line]
      unfold joinChar
      simp
    have hread : ∀ u : LedTable, ((u.map line).map (splitChar ',')).mapM areaRow = .ok (u.map fun l => ((l.1 : ℤ), l.2)) := by
      intro u
      rw [mapM_ok (g := fun row => match areaRow row with | .ok a => a | .error _ => (0, 0, 0))]
      · rw [List.map_map, List.map_map]
        congr 1
        refine List.map_congr_left fun a _ => ?_
        simp only [Function.comp, line]
        rw [splitChar_joinChar (by simp) (by
          intro f hf hm
          simp only [List.mem_cons, List.not_mem_nil, or_false] at hf
          rcases hf with rfl | rfl | rfl <;> (have := intStr_chars _ _ hm; revert this; decide))]
        simp [areaRow, pyInt_intStr, bind, Except.bind]
      · intro row hrow
        rw [List.map_map] at hrow
        obtain ⟨a, _, rfl⟩ := List.mem_map.1 hrow
        simp only [Function.comp, line]
        rw [splitChar_joinChar (by simp) (by
          intro f hf hm
          simp only [List.mem_cons, List.not_mem_nil, or_false] at hf
          rcases hf with rfl | rfl | rfl <;> (have := intStr_chars _ _ hm; revert this; decide))]
        simp [areaRow, pyInt_intStr, bind, Except.bind]
    have hback : ∀ u : LedTable, (u.map fun l => ((l.1 : ℤ), l.2)).map (fun a : ℤ × ℤ × ℤ => (a.1.toNat, a.2)) = u := by
      intro u
      rw [List.map_map]
      conv_rhs => rw [← List.map_id u]
      exact List.map_congr_left fun a _ => by simp
    by_cases hp0 : pre = []
    · left
      rw [hp0, loadCsv_end, loadCsv_rows _ hrows, hread] at h
      simp only [Except.map, Except.ok.injEq] at h
      rw [← h, hback]
    · right
      obtain ⟨l, hl, hp⟩ := h3.resolve_left hp0
      rw [List.getElem?_cons_succ, List.getElem?_map] at hl
      cases hk : t[k]? with
      | none => rw [hk] at hl; cases hl
      | some a =>
        rw [hk] at hl
        simp only [Option.map_some, Option.some.injEq] at hl
        subst hl
        rw [loadCsv_rows, List.map_append, List.mapM_append, hread] at h
        · simp only [List.map_cons, List.map_nil, List.mapM_cons, List.mapM_nil, bind, Except.bind, pure, Except.pure] at h
          cases hr : areaRow (splitChar ',' pre) with
          | error e => rw [hr] at h; cases h
          | ok r =>
            rw [hr] at h
            obtain ⟨e, rfl⟩ := areaRow_torn _ _ _ (hcol a (List.mem_of_getElem? hk)) pre hp r hr
            refine ⟨a, e, rfl, ?_⟩
            simp only [Except.map, Except.ok.injEq] at h
            rw [← h, List.map_append, hback]
            simp
        · intro l hl
          rcases List.mem_append.1 hl with hl | hl
          · exact hrows l hl
          · rw [List.mem_singleton] at hl
            subst hl
            exact ⟨fun hm => hline a '#' (by decide) (by decide) (hp.subset hm), hp0⟩

/-- **C156 (torn, refuted in general).** That a table cut off is noticed when it is read: the file ends after the first digit of the column. -/
theorem C156_torn_false : ¬ ∀ (b : Bool) (t : LedTable) (cut : ℕ) (t' : LedTable), loadTable ((tableText b t).take cut) = .ok t' → ∃ k, t' = t.take k := by
  intro h
  have e : (loadTable ((tableText false [(0, 5, 6), (1, 8, 123)]).take 57)).toOption = some [(0, 5, 6), (1, 8, 12)] := by decide +kernel
  have e' : loadTable ((tableText false [(0, 5, 6), (1, 8, 123)]).take 57) = .ok [(0, 5, 6), (1, 8, 12)] := by
    revert e
    cases loadTable ((tableText false [(0, 5, 6), (1, 8, 123)]).take 57) with
    | error e => intro e; cases e
    | ok v => intro e; simp only [Except.toOption, Option.some.injEq] at e; rw [e]
  obtain ⟨k, hk⟩ := h false _ 57 _ e'
  have hm : ((1, 8, 12) : ℕ × ℤ × ℤ) ∈ ([(0, 5, 6), (1, 8, 123)] : LedTable).take k := by rw [← hk]; simp
  have := List.mem_of_mem_take hm
  revert this
  decide

/-- Step 1 is killed while the table is written, step 2 is then tried, and both are carried out anew. -/
example : (step3Rows ⟨1, none⟩ pairImage 1 false 0
      (runKilled firstMaxLoc pairMetric .empty [⟨.step1 pairJob, some (0, 60)⟩, ⟨.step2 pairOptions, none⟩, ⟨.steps12 pairJob pairOptions, some (1, 0)⟩,
        ⟨.step2 pairOptions, some (2, 1)⟩, ⟨.steps12 pairJob pairOptions, none⟩, ⟨.step2 pairOptions, some (0, 3)⟩])).toOption =
    some [(1, 0, ⟨9, 9 / 4, 9⟩), (0, 0, ⟨7, 7 / 4, 7⟩)] := by decide +kernel

/-- What is known about it. -/
example : (knownStage firstMaxLoc pairMetric none [⟨.step1 pairJob, none⟩, ⟨.step2 pairOptions, some (1, 0)⟩]).isNone ∧
    (knownStage firstMaxLoc pairMetric none [⟨.step1 pairJob, none⟩, ⟨.step2 pairOptions, some (1, 0)⟩, ⟨.step1 pairJob, none⟩]).isSome := by
  decide +kernel

end Ledsa
