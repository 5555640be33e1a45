import Verif.Model.Schedule
import Mathlib.Data.List.Perm.Basic
import Mathlib.Data.List.Nodup
import Mathlib.Data.List.Infix
/-
Step 3 as a set of processes: C28 (schedules), C29 (restart).
-/
namespace Ledsa

/-! ### Files -/

theorem FileStore.get_cons (s : FileStore) (q p t : Str) :
    FileStore.get ((q, t) :: s) p = if q = p then some t else FileStore.get s p := by
  unfold FileStore.get
  rw [List.find?_cons]
  by_cases h : q = p <;> simp [h]

/-- The content of a file after some operations depends only on the operations on this file. -/
theorem FileStore.get_exec (p : Str) (ops : List FileOp) : ∀ s : FileStore, (s.exec ops).get p =
    (ops.filter (fun o => o.path = p)).foldl (fun old o => some (o.content old)) (s.get p) := by
  induction ops with
  | nil => intro s; rfl
  | cons o ops ih =>
    intro s
    show ((s.exec1 o).exec ops).get p = _
    rw [ih, FileStore.exec1, FileStore.get_cons]
    by_cases h : o.path = p
    · rw [if_pos h, List.filter_cons_of_pos (by exact decide_eq_true h), List.foldl_cons, h]
    · rw [if_neg h, List.filter_cons_of_neg (by exact fun h' => h (of_decide_eq_true h'))]

theorem digits_cancel {a b : Str} {x y : Char} {s t : Str} (ha : ∀ c ∈ a, isDigit c = true)
    (hb : ∀ c ∈ b, isDigit c = true) (hx : isDigit x = false) (hy : isDigit y = false)
    (h : a ++ x :: s = b ++ y :: t) : a = b ∧ x :: s = y :: t := by
  have tw : ∀ (a : Str) (x : Char) (s : Str), (∀ c ∈ a, isDigit c = true) → isDigit x = false →
      (a ++ x :: s).takeWhile isDigit = a := by
    intro a x s ha hx
    rw [List.takeWhile_append_of_pos ha]
    simp [hx]
  have h1 := congrArg (List.takeWhile isDigit) h
  rw [tw a x s ha hx, tw b y t hb hy] at h1
  subst h1
  exact ⟨rfl, List.append_cancel_left h⟩

theorem resultPath_eq (c i : Nat) : resultPath c i =
    "analysis/channel".toList ++ (natStr c ++ '/' :: (natStr i ++ '_' :: "led_positions.csv".toList)) := by
  unfold resultPath channelDir resultName
  rw [show "_led_positions.csv".toList = '_' :: "led_positions.csv".toList by decide]
  simp only [List.append_assoc, List.singleton_append]

theorem resultPath_injective {c i c' i' : Nat} (h : resultPath c i = resultPath c' i') : c = c' ∧ i = i' := by
  rw [resultPath_eq, resultPath_eq] at h
  have h1 := List.append_cancel_left h
  obtain ⟨h2, h3⟩ := digits_cancel (natStr_isDigit c) (natStr_isDigit c') (by decide) (by decide) h1
  have h4 := (List.cons.inj h3).2
  obtain ⟨h5, _⟩ := digits_cancel (natStr_isDigit i) (natStr_isDigit i') (by decide) (by decide) h4
  exact ⟨natStr_injective h2, natStr_injective h5⟩

theorem resultPath_ne_log (c i : Nat) : resultPath c i ≠ logPath := by
  rw [resultPath_eq]
  intro h
  have h1 := congrArg List.head? h
  rw [List.head?_append_of_ne_nil _ (by decide)] at h1
  exact absurd h1 (by decide)

theorem content_truncate (old : Option Str) (p : Str) : (FileOp.truncate p).content old = [] := rfl

theorem content_append (old : Option Str) (p t : Str) : (FileOp.append p t).content old = old.getD [] ++ t := rfl

/-! ### Single images -/

/-- Specification: the complete text of a result file. -/
def fileText (env : Step3Env) (fit : Bool) (c i : Nat) : Str :=
  env.header fit c i ++ (match env.rows fit c i with | .ok rows => rows.flatten | .error _ => [])

theorem imgTask_paths (env : Step3Env) (fit : Bool) (cs : List Nat) (i : Nat) :
    ∀ o ∈ (imgTask env fit cs i).1, (fit = true ∧ o.path = logPath) ∨ ∃ c ∈ cs, o.path = resultPath c i := by
  induction cs with
  | nil => simp [imgTask]
  | cons c cs ih =>
    intro o ho
    have hlog : ∀ o ∈ (if fit then (env.logs c i).map (FileOp.append logPath) else []), fit = true ∧ o.path = logPath := by
      intro o ho
      cases fit with
      | false => simp at ho
      | true =>
        rw [if_pos rfl, List.mem_map] at ho
        obtain ⟨t, _, rfl⟩ := ho
        exact ⟨rfl, rfl⟩
    simp only [imgTask] at ho
    split at ho
    · exact Or.inl (hlog o ho)
    · rw [List.mem_append] at ho
      rcases ho with ho | ho
      · exact Or.inl (hlog o ho)
      · rw [List.mem_singleton] at ho
        subst ho
        exact Or.inr ⟨c, by simp, rfl⟩
    · simp only [List.mem_append, List.mem_cons, List.mem_map] at ho
      rcases ho with ho | rfl | rfl | ⟨t, _, rfl⟩ | ho
      · exact Or.inl (hlog o ho)
      · exact Or.inr ⟨c, by simp, rfl⟩
      · exact Or.inr ⟨c, by simp, rfl⟩
      · exact Or.inr ⟨c, by simp, rfl⟩
      · rcases ih o ho with h | ⟨c', hc', h⟩
        · exact Or.inl h
        · exact Or.inr ⟨c', List.mem_cons_of_mem _ hc', h⟩

theorem foldl_appends (p : Str) (rows : List Str) : ∀ t : Str,
    (rows.map (FileOp.append p)).foldl (fun old o => some (o.content old)) (some t) = some (t ++ rows.flatten) := by
  induction rows with
  | nil => intro t; simp
  | cons r rows ih =>
    intro t
    rw [List.map_cons, List.foldl_cons]
    simp only [content_append, Option.getD_some]
    rw [ih]
    simp

/-- Effect of a successful image on its result files. -/
theorem imgTask_effect (env : Step3Env) (fit : Bool) (cs : List Nat) (i c : Nat)
    (hok : (imgTask env fit cs i).2 = true) : ∀ old,
    ((imgTask env fit cs i).1.filter (fun o => o.path = resultPath c i)).foldl (fun old o => some (o.content old)) old =
      if c ∈ cs then some (fileText env fit c i) else old := by
  induction cs with
  | nil => intro old; simp [imgTask]
  | cons d cs ih =>
    intro old
    have hlog : (if fit then (env.logs d i).map (FileOp.append logPath) else []).filter
        (fun o => o.path = resultPath c i) = [] := by
      rw [List.filter_eq_nil_iff]
      intro o ho
      cases fit with
      | false => simp at ho
      | true =>
        rw [if_pos rfl, List.mem_map] at ho
        obtain ⟨t, _, rfl⟩ := ho
        exact fun h => (resultPath_ne_log c i).symm (of_decide_eq_true h)
    simp only [imgTask] at hok ⊢
    split at hok
    · cases hok
    · cases hok
    · rename_i r hnil hr
      simp only at hok
      have ih' := ih hok
      simp only
      rw [List.filter_append, hlog, List.nil_append]
      by_cases hcd : d = c
      · subst hcd
        rw [List.filter_cons_of_pos (by exact decide_eq_true rfl), List.filter_cons_of_pos (by exact decide_eq_true rfl),
          List.filter_append, List.filter_eq_self.2 (by
            intro o ho
            rw [List.mem_map] at ho
            obtain ⟨t, _, rfl⟩ := ho
            exact decide_eq_true rfl), List.foldl_cons, List.foldl_cons, List.foldl_append]
        simp only [content_truncate, content_append, Option.getD_some, List.nil_append]
        rw [foldl_appends, ih']
        have : env.header fit d i ++ List.flatten r = fileText env fit d i := by
          unfold fileText; rw [hr]
        rw [this]
        simp
      · have hne : resultPath d i ≠ resultPath c i := fun h => hcd (resultPath_injective h).1
        rw [List.filter_cons_of_neg (by exact fun h => hne (of_decide_eq_true h)),
          List.filter_cons_of_neg (by exact fun h => hne (of_decide_eq_true h)), List.filter_append, List.filter_eq_nil_iff.2 (by
            intro o ho
            rw [List.mem_map] at ho
            obtain ⟨t, _, rfl⟩ := ho
            exact fun h => hne (of_decide_eq_true h)), List.nil_append, ih']
        have : (c ∈ d :: cs) ↔ c ∈ cs := by
          rw [List.mem_cons]
          exact ⟨fun h => h.resolve_left (fun h => hcd h.symm), Or.inr⟩
        simp only [this]

/-- A successful image has a non-empty list of rows for every channel. -/
theorem imgTask_ok_iff (env : Step3Env) (fit : Bool) (cs : List Nat) (i : Nat) :
    (imgTask env fit cs i).2 = true ↔ ∀ c ∈ cs, ∃ r rows, env.rows fit c i = .ok (r :: rows) := by
  induction cs with
  | nil => simp [imgTask]
  | cons c cs ih =>
    simp only [imgTask, List.forall_mem_cons]
    split
    · rename_i h; simp [h]
    · rename_i h; simp [h]
    · rename_i rows hnil hr
      simp only
      rw [ih]
      constructor
      · intro h
        refine ⟨?_, h⟩
        cases rows with
        | nil => exact (hnil rfl).elim
        | cons r rows => exact ⟨r, rows, hr⟩
      · exact fun h => h.2

/-! ### Schedules -/

/-- Operations of a pool run on a path that at most one image touches come in program order. -/
theorem poolRun_filter {k : Nat} {pending active : List (List FileOp)} {tr : List FileOp} (h : PoolRun k pending active tr)
    (p : Str) (hd : (active ++ pending).Pairwise (fun a b => ¬ ((∃ o ∈ a, o.path = p) ∧ ∃ o ∈ b, o.path = p))) :
    tr.filter (fun o => o.path = p) = (active ++ pending).flatten.filter (fun o => o.path = p) := by
  induction h with
  | done => rfl
  | start _ _ ih =>
    rw [List.append_assoc, List.singleton_append] at ih
    exact ih hd
  | @exec pending a1 a2 op rest tr _ ih =>
    rw [List.append_assoc, List.cons_append] at hd ih ⊢
    have hd' : (a1 ++ rest :: (a2 ++ pending)).Pairwise
        (fun a b => ¬ ((∃ o ∈ a, o.path = p) ∧ ∃ o ∈ b, o.path = p)) := by
      rw [List.pairwise_append, List.pairwise_cons] at hd ⊢
      obtain ⟨h1, ⟨h2, h3⟩, h4⟩ := hd
      refine ⟨h1, ⟨?_, h3⟩, ?_⟩
      · rintro b hb ⟨⟨o, ho, hp⟩, hb'⟩
        exact h2 b hb ⟨⟨o, List.mem_cons_of_mem _ ho, hp⟩, hb'⟩
      · intro a ha b hb
        rw [List.mem_cons] at hb
        rcases hb with rfl | hb
        · rintro ⟨ha', ⟨o, ho, hp⟩⟩
          exact h4 a ha _ List.mem_cons_self ⟨ha', ⟨o, List.mem_cons_of_mem _ ho, hp⟩⟩
        · exact h4 a ha b (by simp [hb])
    have ih' := ih hd'
    simp only [List.flatten_append, List.flatten_cons, List.filter_append] at ih' ⊢
    by_cases hp : op.path = p
    · have hnone : a1.flatten.filter (fun o => o.path = p) = [] := by
        rw [List.filter_eq_nil_iff]
        intro o ho hop
        rw [List.mem_flatten] at ho
        obtain ⟨a, ha, hoa⟩ := ho
        rw [List.pairwise_append] at hd
        exact hd.2.2 a ha (op :: rest) (by simp) ⟨⟨o, hoa, by simpa using hop⟩, ⟨op, by simp, hp⟩⟩
      rw [List.filter_cons_of_pos (by exact decide_eq_true hp), ih', hnone,
        List.filter_cons_of_pos (by exact decide_eq_true hp)]
      simp
    · rw [List.filter_cons_of_neg (by exact fun h => hp (of_decide_eq_true h)), ih',
        List.filter_cons_of_neg (by exact fun h => hp (of_decide_eq_true h))]
  | @finish pending a1 a2 tr _ ih =>
    have hd' : (a1 ++ a2 ++ pending).Pairwise (fun a b => ¬ ((∃ o ∈ a, o.path = p) ∧ ∃ o ∈ b, o.path = p)) := by
      refine hd.sublist ?_
      simp
    rw [ih hd']
    simp

/-- A pool run executes exactly the operations of all images. -/
theorem poolRun_perm {k : Nat} {pending active : List (List FileOp)} {tr : List FileOp} (h : PoolRun k pending active tr) :
    tr.Perm (active ++ pending).flatten := by
  induction h with
  | done => simp
  | start _ _ ih => simpa using ih
  | exec _ ih =>
    refine (ih.cons _).trans ?_
    simp only [List.flatten_append, List.flatten_cons, List.cons_append, List.append_assoc]
    exact List.perm_middle.symm
  | finish _ ih => simpa using ih

/-- Every list of images can be processed with at least one worker, e.g. one after the other. -/
theorem poolRun_exists {k : Nat} (hk : 0 < k) (pending : List (List FileOp)) : PoolRun k pending [] pending.flatten := by
  have run : ∀ (t : List FileOp) (pending : List (List FileOp)) (tr : List FileOp), PoolRun k pending [] tr →
      PoolRun k pending [t] (t ++ tr) := by
    intro t
    induction t with
    | nil => intro pending tr h; exact PoolRun.finish (a1 := []) (a2 := []) h
    | cons o t ih => intro pending tr h; exact PoolRun.exec (a1 := []) (a2 := []) (ih pending tr h)
  induction pending with
  | nil => exact PoolRun.done
  | cons t pending ih =>
    rw [List.flatten_cons]
    exact PoolRun.start (by simpa using hk) (run t pending _ ih)

/-- Images write to different files. -/
theorem tasks_disjoint (env : Step3Env) (fit : Bool) (cs : List Nat) (ids : List Nat) (hn : ids.Nodup) (p : Str)
    (hp : p ≠ logPath) : (ids.map fun i => (imgTask env fit cs i).1).Pairwise
      (fun a b => ¬ ((∃ o ∈ a, o.path = p) ∧ ∃ o ∈ b, o.path = p)) := by
  rw [List.pairwise_map]
  refine hn.imp ?_
  rintro i j hij ⟨⟨o, ho, hop⟩, ⟨o', ho', hop'⟩⟩
  rcases imgTask_paths env fit cs i o ho with ⟨_, h⟩ | ⟨c, _, h⟩
  · exact hp (hop ▸ h)
  · rcases imgTask_paths env fit cs j o' ho' with ⟨_, h'⟩ | ⟨c', _, h'⟩
    · exact hp (hop' ▸ h')
    · rw [hop] at h
      rw [hop', h] at h'
      exact hij (resultPath_injective h').2

theorem filter_flatten_eq {p : Str} {i : Nat} {ids : List Nat} {f : Nat → List FileOp} (hn : ids.Nodup) (hi : i ∈ ids)
    (h : ∀ j ∈ ids, j ≠ i → ∀ o ∈ f j, o.path ≠ p) :
    (ids.map f).flatten.filter (fun o => o.path = p) = (f i).filter (fun o => o.path = p) := by
  induction ids with
  | nil => cases hi
  | cons a ids ih =>
    rw [List.nodup_cons] at hn
    simp only [List.map_cons, List.flatten_cons, List.filter_append]
    by_cases hai : a = i
    · subst hai
      have : (ids.map f).flatten.filter (fun o => o.path = p) = [] := by
        rw [List.filter_eq_nil_iff]
        intro o ho
        rw [List.mem_flatten] at ho
        obtain ⟨l, hl, ho⟩ := ho
        rw [List.mem_map] at hl
        obtain ⟨j, hj, rfl⟩ := hl
        simpa using h j (List.mem_cons_of_mem _ hj) (fun e => hn.1 (e ▸ hj)) o ho
      rw [this, List.append_nil]
    · have h1 : (f a).filter (fun o => o.path = p) = [] := by
        rw [List.filter_eq_nil_iff]
        intro o ho
        simpa using h a (by simp) hai o ho
      rw [h1, List.nil_append]
      refine ih hn.2 ((List.mem_cons.1 hi).resolve_left (fun e => hai e.symm)) ?_
      intro j hj
      exact h j (List.mem_cons_of_mem _ hj)

/-- Effect of any pool run of successful images on any file but the log. -/
theorem poolRun_effect (env : Step3Env) (fit : Bool) (cs ids : List Nat) (hn : ids.Nodup)
    (hok : ∀ i ∈ ids, (imgTask env fit cs i).2 = true) {k : Nat} {tr : List FileOp}
    (h : PoolRun k (ids.map fun i => (imgTask env fit cs i).1) [] tr) (s : FileStore) :
    (∀ c i, (s.exec tr).get (resultPath c i) =
      if c ∈ cs ∧ i ∈ ids then some (fileText env fit c i) else s.get (resultPath c i)) ∧
    ∀ p, p ≠ logPath → (∀ c i, p ≠ resultPath c i) → (s.exec tr).get p = s.get p := by
  have key : ∀ p, p ≠ logPath → tr.filter (fun o => o.path = p) =
      (ids.map fun i => (imgTask env fit cs i).1).flatten.filter (fun o => o.path = p) := by
    intro p hp
    have := poolRun_filter h p (by simpa using tasks_disjoint env fit cs ids hn p hp)
    simpa using this
  have hnone : ∀ p, p ≠ logPath → (∀ c ∈ cs, ∀ i ∈ ids, p ≠ resultPath c i) → (s.exec tr).get p = s.get p := by
    intro p hp hne
    rw [FileStore.get_exec, key p hp, List.filter_eq_nil_iff.2]
    · rfl
    · intro o ho
      rw [List.mem_flatten] at ho
      obtain ⟨l, hl, ho⟩ := ho
      rw [List.mem_map] at hl
      obtain ⟨j, hj, rfl⟩ := hl
      rcases imgTask_paths env fit cs j o ho with ⟨_, h'⟩ | ⟨c, hc, h'⟩
      · simpa [h'] using hp.symm
      · simpa [h'] using (hne c hc j hj).symm
  refine ⟨?_, fun p hp hne => hnone p hp (fun c _ i _ => hne c i)⟩
  intro c i
  split
  · rename_i hci
    rw [FileStore.get_exec, key _ (resultPath_ne_log c i), filter_flatten_eq hn hci.2, imgTask_effect env fit cs i c
      (hok i hci.2), if_pos hci.1]
    intro j hj hji o ho
    rcases imgTask_paths env fit cs j o ho with ⟨_, h'⟩ | ⟨c', _, h'⟩
    · rw [h']; exact (resultPath_ne_log c i).symm
    · rw [h']; exact fun e => hji (resultPath_injective e).2
  · rename_i hci
    refine hnone _ (resultPath_ne_log c i) ?_
    rintro c' hc' i' hi' e
    obtain ⟨rfl, rfl⟩ := resultPath_injective e
    exact hci ⟨hc', hi'⟩

/-- **C28.** For every number of workers and every schedule, if all images can be processed, every result file has the
text determined by image and channel alone, exactly as after serial processing; no other file (but the fit log) is
touched. Missing (and false, see below): the order of the entries of the fit log, and runs in which an image fails. -/
theorem C28_schedule_independent_partial (env : Step3Env) (fit : Bool) (cs ids : List Nat) (hn : ids.Nodup)
    (hok : ∀ i ∈ ids, ∀ c ∈ cs, ∃ r rows, env.rows fit c i = .ok (r :: rows)) (k : Nat) (tr : List FileOp)
    (h : PoolRun k (ids.map fun i => (imgTask env fit cs i).1) [] tr) (s : FileStore) :
    (∀ c ∈ cs, ∀ i ∈ ids, (s.exec tr).get (resultPath c i) = some (fileText env fit c i)) ∧
    ∀ p, p ≠ logPath → (s.exec tr).get p = (s.exec (serialOps (ids.map (imgTask env fit cs)))).get p := by
  have hok' : ∀ i ∈ ids, (imgTask env fit cs i).2 = true := fun i hi => (imgTask_ok_iff env fit cs i).2 (hok i hi)
  have hser : serialOps (ids.map (imgTask env fit cs)) = (ids.map fun i => (imgTask env fit cs i).1).flatten := by
    clear hn hok h
    induction ids with
    | nil => rfl
    | cons i ids ih =>
      simp only [List.map_cons, serialOps, List.flatten_cons]
      rw [if_pos (hok' i (by simp)), ih (fun j hj => hok' j (List.mem_cons_of_mem _ hj))]
  have e1 := poolRun_effect env fit cs ids hn hok' h s
  have e2 := poolRun_effect env fit cs ids hn hok' (poolRun_exists (Nat.zero_lt_one)
    (ids.map fun i => (imgTask env fit cs i).1)) s
  refine ⟨?_, ?_⟩
  · intro c hc i hi
    rw [e1.1, if_pos ⟨hc, hi⟩]
  · intro p hp
    rw [hser]
    by_cases hr : ∃ c i, p = resultPath c i
    · obtain ⟨c, i, rfl⟩ := hr
      rw [e1.1, e2.1]
    · rw [e1.2 p hp (fun c i e => hr ⟨c, i, e⟩), e2.2 p hp (fun c i e => hr ⟨c, i, e⟩)]

/-- **C28.** Runs exist for every positive number of workers. -/
theorem C28_runs_exist (env : Step3Env) (fit : Bool) (cs ids : List Nat) (k : Nat) (hk : 0 < k) :
    ∃ tr, PoolRun k (ids.map fun i => (imgTask env fit cs i).1) [] tr :=
  ⟨_, poolRun_exists hk _⟩

/-- **C28**, log file: its entries are the same for every schedule up to order. -/
theorem C28_log_entries (env : Step3Env) (fit : Bool) (cs ids : List Nat) (k : Nat) (tr : List FileOp)
    (h : PoolRun k (ids.map fun i => (imgTask env fit cs i).1) [] tr) :
    (tr.filter (fun o => o.path = logPath)).Perm
      ((ids.map fun i => (imgTask env fit cs i).1).flatten.filter (fun o => o.path = logPath)) := by
  have := (poolRun_perm h).filter (fun o => o.path = logPath)
  simpa using this

/-- A fit that fails in two images, for the counterexample. -/
def logEnv : Step3Env := ⟨fun _ _ _ => [], fun _ _ _ => .ok ["r".toList], fun _ i => [natStr i]⟩

/-- **C28 refuted for the log**: its text depends on the schedule. -/
theorem C28_log_order_false : ¬ ∀ (env : Step3Env) (cs ids : List Nat) (k : Nat) (tr : List FileOp), ids.Nodup →
    PoolRun k (ids.map fun i => (imgTask env true cs i).1) [] tr →
    FileStore.get (FileStore.exec [] tr) logPath =
      FileStore.get (FileStore.exec [] (serialOps (ids.map (imgTask env true cs)))) logPath := by
  intro h
  have run := h logEnv [0] [1, 2] 2 [.append logPath "2".toList, .append logPath "1".toList,
    .truncate (resultPath 0 1), .append (resultPath 0 1) [], .append (resultPath 0 1) "r".toList,
    .truncate (resultPath 0 2), .append (resultPath 0 2) [], .append (resultPath 0 2) "r".toList] (by decide)
    (by
      refine PoolRun.start (by decide) (PoolRun.start (by decide) ?_)
      refine PoolRun.exec (a1 := [_]) (a2 := []) ?_
      refine PoolRun.exec (a1 := []) (a2 := [_]) (PoolRun.exec (a1 := []) (a2 := [_])
        (PoolRun.exec (a1 := []) (a2 := [_]) (PoolRun.exec (a1 := []) (a2 := [_])
        (PoolRun.finish (a1 := []) (a2 := [_]) ?_))))
      exact PoolRun.exec (a1 := []) (a2 := []) (PoolRun.exec (a1 := []) (a2 := [])
        (PoolRun.exec (a1 := []) (a2 := []) (PoolRun.finish (a1 := []) (a2 := []) PoolRun.done))))
  revert run
  decide

/-- The second of two images cannot be processed, e.g. is damaged. -/
def failEnv : Step3Env :=
  ⟨fun _ _ _ => [], fun _ _ i => if i = 1 then .error .valueError else .ok ["r".toList], fun _ _ => []⟩

/-- **C28 refuted for failing images**: on one core, nothing is done after the first image that cannot be processed; with
two workers the later images may be done. -/
theorem C28_failing_image_false : ¬ ∀ (env : Step3Env) (cs ids : List Nat) (k : Nat) (tr : List FileOp), ids.Nodup →
    PoolRun k (ids.map fun i => (imgTask env false cs i).1) [] tr → ∀ c i,
    FileStore.get (FileStore.exec [] tr) (resultPath c i) =
      FileStore.get (FileStore.exec [] (serialOps (ids.map (imgTask env false cs)))) (resultPath c i) := by
  intro h
  have := h failEnv [0] [1, 2] 2 _ (by decide) (poolRun_exists (by decide) _) 0 2
  revert this
  decide

/-! ### C29 -/

theorem searchResultName_resultName (i : Nat) : searchResultName (resultName i) = some i := by
  have hne := natStr_ne_nil i
  have hm : matchResultName (resultName i) = some i := by
    have h1 : (resultName i).takeWhile isDigit = natStr i := by
      unfold resultName
      rw [List.takeWhile_append_of_pos (natStr_isDigit i)]
      rw [show "_led_positions.csv".toList.takeWhile isDigit = [] by decide, List.append_nil]
    have h2 : (resultName i).dropWhile isDigit = "_led_positions.csv".toList := by
      unfold resultName
      rw [List.dropWhile_append_of_pos (natStr_isDigit i)]
      decide
    unfold matchResultName
    simp only [h1, h2]
    rw [if_neg hne, if_pos (by decide)]
    exact parseNat_natStr i
  cases h : resultName i with
  | nil => rw [h] at hm; simp [matchResultName] at hm
  | cons c s => rw [h] at hm; simp [searchResultName, hm]

theorem resultName_noSlash (i : Nat) : '/' ∉ resultName i := by
  unfold resultName
  rw [List.mem_append]
  rintro (h | h)
  · exact absurd (natStr_isDigit i _ h) (by decide)
  · exact absurd h (by decide)

theorem mem_listDir (s : FileStore) (c : Nat) (n : Str) (hn : '/' ∉ n) :
    n ∈ listDir s c ↔ s.get (channelDir c ++ n) ≠ none := by
  unfold listDir FileStore.get
  rw [List.mem_map]
  have : (Option.map (fun e : Str × Str => e.2) (s.find? (fun e => e.1 = channelDir c ++ n)) ≠ none) ↔
      ∃ e ∈ s, e.1 = channelDir c ++ n := by
    rw [ne_eq, Option.map_eq_none_iff, List.find?_eq_none]
    simp
  rw [this]
  constructor
  · rintro ⟨e, he, rfl⟩
    rw [List.mem_filter, Bool.and_eq_true, List.isPrefixOf_iff_prefix] at he
    obtain ⟨he, ⟨t, ht⟩, _⟩ := he
    refine ⟨e, he, ?_⟩
    rw [← ht]
    simp
  · rintro ⟨e, he, h⟩
    refine ⟨e, ?_, by rw [h]; simp⟩
    rw [List.mem_filter, Bool.and_eq_true, List.isPrefixOf_iff_prefix]
    refine ⟨he, by rw [h]; exact List.prefix_append _ _, ?_⟩
    rw [h]
    simpa using hn

/-- An existing result file counts as analysed, whatever its content. -/
theorem analysed_of_file (s : FileStore) (c i : Nat) (h : s.get (resultPath c i) ≠ none) : i ∈ analysedIds s c := by
  unfold analysedIds
  rw [List.mem_filterMap]
  exact ⟨resultName i, (mem_listDir s c _ (resultName_noSlash i)).2 h, searchResultName_resultName i⟩

/-- **C29, exact law.** What a restart does, for every state of the disk: images with a file in the directory of the
first channel are left as they are in all channels, all others are written completely, without fit. -/
theorem C29_restart_effect (env : Step3Env) (infos : List Nat) (hn : infos.Nodup) (c0 : Nat) (cs : List Nat)
    (hok : ∀ i ∈ infos, ∀ c ∈ c0 :: cs, ∃ r rows, env.rows false c i = .ok (r :: rows)) (k : Nat) (s s' : FileStore)
    (h : RestartRun env infos (c0 :: cs) k s s') (c : Nat) (hc : c ∈ c0 :: cs) (i : Nat) (hi : i ∈ infos) :
    s'.get (resultPath c i) =
      if i ∈ analysedIds s c0 then s.get (resultPath c i) else some (fileText env false c i) := by
  obtain ⟨ids, order, tr, hids, hperm, hrun, rfl⟩ := h
  simp only [restartIds, notAnalysed] at hids
  split at hids
  · obtain rfl := Except.ok.inj hids
    have hmem : ∀ j, j ∈ order ↔ j ∈ infos ∧ j ∉ analysedIds s c0 := by
      intro j
      rw [hperm.mem_iff, List.mem_filter]
      simp
    have hno : order.Nodup := hperm.nodup_iff.2 (hn.filter _)
    have e := (poolRun_effect env false (c0 :: cs) order hno
      (fun j hj => (imgTask_ok_iff env false (c0 :: cs) j).2 (hok j ((hmem j).1 hj).1)) hrun s).1 c i
    rw [e]
    by_cases ha : i ∈ analysedIds s c0
    · rw [if_pos ha, if_neg (by rw [hmem]; tauto)]
    · rw [if_neg ha, if_pos ⟨hc, (hmem i).2 ⟨hi, ha⟩⟩]
  · cases hids

/-- **C29 refuted, truncated files**: a result file that exists when the restart begins is kept as it is, even if the
interruption left it empty or incomplete. -/
theorem C29_existing_file_kept (env : Step3Env) (infos : List Nat) (hn : infos.Nodup) (c0 : Nat) (cs : List Nat)
    (hok : ∀ i ∈ infos, ∀ c ∈ c0 :: cs, ∃ r rows, env.rows false c i = .ok (r :: rows)) (k : Nat) (s s' : FileStore)
    (h : RestartRun env infos (c0 :: cs) k s s') (i : Nat) (hi : i ∈ infos) (t : Str)
    (ht : s.get (resultPath c0 i) = some t) : s'.get (resultPath c0 i) = some t := by
  rw [C29_restart_effect env infos hn c0 cs hok k s s' h c0 (by simp) i hi, if_pos, ht]
  exact analysed_of_file s c0 i (by rw [ht]; simp)

/-- **C29 refuted, several channels**: if the interruption came between two channels of an image, the missing file of the
second channel is never written. -/
theorem C29_second_channel_lost (env : Step3Env) (infos : List Nat) (hn : infos.Nodup) (c0 : Nat) (cs : List Nat)
    (hok : ∀ i ∈ infos, ∀ c ∈ c0 :: cs, ∃ r rows, env.rows false c i = .ok (r :: rows)) (k : Nat) (s s' : FileStore)
    (h : RestartRun env infos (c0 :: cs) k s s') (i : Nat) (hi : i ∈ infos)
    (h0 : s.get (resultPath c0 i) ≠ none) (c : Nat) (hc : c ∈ cs) (h1 : s.get (resultPath c i) = none) :
    s'.get (resultPath c i) = none := by
  rw [C29_restart_effect env infos hn c0 cs hok k s s' h c (by simp [hc]) i hi, if_pos (analysed_of_file s c0 i h0), h1]

/-- **C29 refuted, fit**: images processed by a restart never have fit results. -/
theorem C29_restart_without_fit (env : Step3Env) (infos : List Nat) (hn : infos.Nodup) (c0 : Nat) (cs : List Nat)
    (hok : ∀ i ∈ infos, ∀ c ∈ c0 :: cs, ∃ r rows, env.rows false c i = .ok (r :: rows)) (k : Nat) (s s' : FileStore)
    (h : RestartRun env infos (c0 :: cs) k s s') (i : Nat) (hi : i ∈ infos) (h0 : i ∉ analysedIds s c0) :
    ∀ c ∈ c0 :: cs, s'.get (resultPath c i) = some (fileText env false c i) := by
  intro c hc
  rw [C29_restart_effect env infos hn c0 cs hok k s s' h c hc i hi, if_neg h0]

/-- The literal claim C29 (for a run with the given fit mode, on a disk without results). -/
def RestartCompletes (fit : Bool) (channels : List Nat) : Prop :=
  ∀ (env : Step3Env) (infos : List Nat) (k : Nat) (tr tr' : List FileOp) (s' : FileStore), infos.Nodup →
    (∀ f, ∀ i ∈ infos, ∀ c ∈ channels, ∃ r rows, env.rows f c i = .ok (r :: rows)) →
    PoolRun k (infos.map fun i => (imgTask env fit channels i).1) [] tr → tr' <+: tr →
    RestartRun env infos channels k (FileStore.exec [] tr') s' →
    ∀ c ∈ channels, ∀ i ∈ infos, s'.get (resultPath c i) = some (fileText env fit c i)

/-- An environment with different texts with and without fit. -/
def restartEnv : Step3Env :=
  ⟨fun _ _ _ => "h".toList, fun f _ _ => .ok [if f then "fit".toList else "row".toList], fun _ _ => []⟩

/-- **C29 refuted** (one channel, without fit): interrupted directly after opening the result file. -/
theorem C29_truncated_false : ¬ RestartCompletes false [0] := by
  intro h
  have hr : RestartRun restartEnv [1] [0] 1 (FileStore.exec [] [.truncate (resultPath 0 1)])
      (FileStore.exec [] [.truncate (resultPath 0 1)]) :=
    ⟨[], [], [], by decide +kernel, List.Perm.refl _, PoolRun.done, rfl⟩
  have := h restartEnv [1] 1 _ [.truncate (resultPath 0 1)] _ (by decide)
    (fun f i _ c _ => ⟨_, [], rfl⟩) (poolRun_exists (by decide) _) (by decide) hr 0 (by simp) 1 (by simp)
  revert this
  decide +kernel

/-- **C29 refuted** (two channels, without fit): interrupted between the complete files of the two channels. -/
theorem C29_channels_false : ¬ RestartCompletes false [0, 1] := by
  intro h
  have hr : RestartRun restartEnv [1] [0, 1] 1 (FileStore.exec [] (imgTask restartEnv false [0] 1).1)
      (FileStore.exec [] (imgTask restartEnv false [0] 1).1) :=
    ⟨[], [], [], by decide +kernel, List.Perm.refl _, PoolRun.done, rfl⟩
  have := h restartEnv [1] 1 _ (imgTask restartEnv false [0] 1).1 _ (by decide)
    (fun f i _ c _ => ⟨_, [], rfl⟩) (poolRun_exists (by decide) _) (by decide) hr 1 (by simp) 1 (by simp)
  revert this
  decide +kernel

/-- **C29 refuted** (one channel, with fit): interrupted before the first image. -/
theorem C29_fit_false : ¬ RestartCompletes true [0] := by
  intro h
  have hr : RestartRun restartEnv [1] [0] 1 (FileStore.exec [] []) (FileStore.exec [] (imgTask restartEnv false [0] 1).1) :=
    ⟨[1], [1], (imgTask restartEnv false [0] 1).1, by decide +kernel, List.Perm.refl _,
      poolRun_exists (by decide) [(imgTask restartEnv false [0] 1).1], rfl⟩
  have := h restartEnv [1] 1 _ [] _ (by decide)
    (fun f i _ c _ => ⟨_, [], rfl⟩) (poolRun_exists (by decide) _) (List.nil_prefix) hr 0 (by simp) 1 (by simp)
  revert this
  decide +kernel

/-- **C29.** A result file of an image that is not listed makes every restart fail. -/
theorem C29_unlisted_image_fails (env : Step3Env) (infos : List Nat) (c0 : Nat) (cs : List Nat) (k : Nat) (s s' : FileStore)
    (i : Nat) (hi : i ∉ infos) (h0 : s.get (resultPath c0 i) ≠ none) :
    restartIds s infos (c0 :: cs) = .error .nameError ∧ ¬ RestartRun env infos (c0 :: cs) k s s' := by
  have h : restartIds s infos (c0 :: cs) = .error .nameError := by
    simp only [restartIds, notAnalysed]
    rw [if_neg]
    intro hall
    exact hi (hall i (analysed_of_file s c0 i h0))
  refine ⟨h, ?_⟩
  rintro ⟨ids, _, _, h', _⟩
  rw [h] at h'
  cases h'

/-- States reached from `s0` by any number of interrupted runs and restarts, without fit, with one channel: each leaves a
prefix of the effects of one of its schedules. -/
inductive Interrupted (env : Step3Env) (infos : List Nat) (c : Nat) (s0 : FileStore) : FileStore → Prop
  | refl : Interrupted env infos c s0 s0
  | run {s k tr tr'} : Interrupted env infos c s0 s →
      PoolRun k (infos.map fun i => (imgTask env false [c] i).1) [] tr → tr' <+: tr →
      Interrupted env infos c s0 (s.exec tr')
  | restart {s k ids order tr tr'} : Interrupted env infos c s0 s → restartIds s infos [c] = .ok ids →
      List.Perm order ids → PoolRun k (order.map fun i => (imgTask env false [c] i).1) [] tr → tr' <+: tr →
      Interrupted env infos c s0 (s.exec tr')

theorem exec_paths (ops : List FileOp) : ∀ (s : FileStore), ∀ e ∈ s.exec ops, e ∈ s ∨ ∃ o ∈ ops, e.1 = o.path := by
  induction ops with
  | nil => intro s e he; exact Or.inl he
  | cons o ops ih =>
    intro s e he
    rcases ih (s.exec1 o) e he with h | ⟨o', ho', h⟩
    · rcases List.mem_cons.1 h with rfl | h
      · exact Or.inr ⟨o, by simp, rfl⟩
      · exact Or.inl h
    · exact Or.inr ⟨o', List.mem_cons_of_mem _ ho', h⟩

/-- In such states the directory holds only result files of listed images. -/
theorem interrupted_dir {env : Step3Env} {infos : List Nat} {c : Nat} {s0 s : FileStore} (h0 : listDir s0 c = [])
    (h : Interrupted env infos c s0 s) : ∀ n ∈ listDir s c, ∃ i ∈ infos, n = resultName i := by
  have step : ∀ (s : FileStore) (order : List Nat) (k : Nat) (tr tr' : List FileOp),
      (∀ n ∈ listDir s c, ∃ i ∈ infos, n = resultName i) → (∀ i ∈ order, i ∈ infos) →
      PoolRun k (order.map fun i => (imgTask env false [c] i).1) [] tr → tr' <+: tr →
      ∀ n ∈ listDir (s.exec tr') c, ∃ i ∈ infos, n = resultName i := by
    intro s order k tr tr' ih hsub hrun hpre n hn
    unfold listDir at hn
    rw [List.mem_map] at hn
    obtain ⟨e, he, rfl⟩ := hn
    rw [List.mem_filter] at he
    rcases exec_paths tr' s e he.1 with h | ⟨o, ho, heo⟩
    · apply ih
      unfold listDir
      rw [List.mem_map]
      exact ⟨e, List.mem_filter.2 ⟨h, he.2⟩, rfl⟩
    · have hm := (poolRun_perm hrun).mem_iff.1 (hpre.subset ho)
      simp only [List.nil_append, List.mem_flatten, List.mem_map] at hm
      obtain ⟨l, ⟨i, hi, rfl⟩, hol⟩ := hm
      rcases imgTask_paths env false [c] i o hol with ⟨hf, _⟩ | ⟨c', hc', hp⟩
      · cases hf
      · rw [List.mem_singleton] at hc'
        subst hc'
        refine ⟨i, hsub i hi, ?_⟩
        rw [heo, hp, resultPath]
        simp
  induction h with
  | refl => rw [h0]; simp
  | run _ hrun hpre ih => exact step _ infos _ _ _ ih (fun _ h => h) hrun hpre
  | restart _ hids hperm hrun hpre ih =>
    refine step _ _ _ _ _ ih ?_ hrun hpre
    intro i hi
    rw [hperm.mem_iff] at hi
    simp only [restartIds, notAnalysed] at hids
    split at hids
    · obtain rfl := Except.ok.inj hids
      exact (List.mem_filter.1 hi).1
    · cases hids

/-- **C29, partial**: one channel, no fit, no older results in the directory. After any number of interruptions at any
points of any schedules, if the last one left no incomplete file, a restart is possible and every restart leaves exactly
the result files of an uninterrupted run. Missing (and false, see above): incomplete files, several channels, fit. -/
theorem C29_restart_partial (env : Step3Env) (infos : List Nat) (hn : infos.Nodup) (c : Nat)
    (hok : ∀ i ∈ infos, ∃ r rows, env.rows false c i = .ok (r :: rows)) (s0 s : FileStore) (h0 : listDir s0 c = [])
    (hs : Interrupted env infos c s0 s)
    (hcomplete : ∀ i ∈ infos, s.get (resultPath c i) = none ∨ s.get (resultPath c i) = some (fileText env false c i))
    (k : Nat) (hk : 0 < k) :
    (∃ s', RestartRun env infos [c] k s s') ∧
    ∀ s', RestartRun env infos [c] k s s' →
      ∀ i ∈ infos, s'.get (resultPath c i) = some (fileText env false c i) := by
  have hdir := interrupted_dir h0 hs
  have hana : ∀ i, i ∈ analysedIds s c ↔ i ∈ infos ∧ s.get (resultPath c i) ≠ none := by
    intro i
    constructor
    · intro hi
      unfold analysedIds at hi
      rw [List.mem_filterMap] at hi
      obtain ⟨n, hnn, hi⟩ := hi
      obtain ⟨j, hj, rfl⟩ := hdir n hnn
      rw [searchResultName_resultName] at hi
      obtain rfl := Option.some.inj hi
      exact ⟨hj, (mem_listDir s c _ (resultName_noSlash j)).1 hnn⟩
    · rintro ⟨_, h⟩
      exact analysed_of_file s c i h
  constructor
  · refine ⟨_, infos.filter (fun i => i ∉ analysedIds s c), _, _, ?_, List.Perm.refl _, poolRun_exists hk _, rfl⟩
    simp only [restartIds, notAnalysed]
    rw [if_pos]
    exact fun i hi => ((hana i).1 hi).1
  · intro s' h i hi
    rw [C29_restart_effect env infos hn c [] (by simpa using hok) k s s' h c (by simp) i hi]
    split
    · rename_i ha
      exact (hcomplete i hi).resolve_left ((hana i).1 ha).2
    · rfl

/-- Two images, interrupted after the first. -/
example : restartIds (FileStore.exec [] (imgTask restartEnv false [0] 1).1) [1, 2] [0] = .ok [2] := by decide +kernel

/-- Other file names in the directory count as well. -/
example : analysedIds [(channelDir 0 ++ "copy_of_17_led_positions.csv".toList, [])] 0 = [17] := by decide +kernel

/-- **C27/C29.** An image without any row to write fails and leaves an empty result file, and a restart takes this image
for analysed. -/
theorem C27_no_rows_leaves_empty_file (env : Step3Env) (fit : Bool) (c : Nat) (cs : List Nat) (i : Nat) (s : FileStore)
    (h : env.rows fit c i = .ok []) :
    (imgTask env fit (c :: cs) i).2 = false ∧
      (s.exec (imgTask env fit (c :: cs) i).1).get (resultPath c i) = some [] ∧
      i ∈ analysedIds (s.exec (imgTask env fit (c :: cs) i).1) c := by
  have h1 : (s.exec (imgTask env fit (c :: cs) i).1).get (resultPath c i) = some [] := by
    rw [FileStore.get_exec]
    simp only [imgTask, h]
    rw [List.filter_append, List.foldl_append]
    simp [FileOp.path, FileOp.content]
  refine ⟨by simp [imgTask, h], h1, ?_⟩
  exact analysed_of_file _ c i (by rw [h1]; simp)

/-! ### C29: which files count as results -/

/-- `name` contains a number followed by `_led_positions`, any character and `csv`. -/
def LooksLikeResult (name : Str) (n : Nat) : Prop :=
  ∃ (pre d post : Str) (x : Char), name = pre ++ d ++ "_led_positions".toList ++ x :: 'c' :: 's' :: 'v' :: post ∧
    d ≠ [] ∧ (∀ c ∈ d, isDigit c = true) ∧ x ≠ '\n' ∧ parseNat d = some n

theorem takeWhile_digits_append {d r : Str} (hd : ∀ c ∈ d, isDigit c = true) (hr : ∀ c t, r = c :: t → isDigit c = false) :
    (d ++ r).takeWhile isDigit = d ∧ (d ++ r).dropWhile isDigit = r := by
  induction d with
  | nil =>
    cases r with
    | nil => simp
    | cons c t => simp [hr c t rfl]
  | cons c t ih =>
    have h := ih fun c hc => hd c (by simp [hc])
    have hc := hd c (by simp)
    simp [hc, h.1, h.2]

theorem parseNat_digits {d : Str} (hne : d ≠ []) (hd : ∀ c ∈ d, isDigit c = true) : ∃ n, parseNat d = some n := by
  have key : ∀ (d : Str), (∀ c ∈ d, isDigit c = true) → ∀ acc, ∃ n, digitsVal acc d = some n := by
    intro d
    induction d with
    | nil => intro _ acc; exact ⟨acc, rfl⟩
    | cons c t ih =>
      intro h acc
      have hc := h c (by simp)
      obtain ⟨v, hv⟩ : ∃ v, charDigit c = some v := by
        unfold isDigit at hc
        simp only [Bool.and_eq_true, decide_eq_true_eq] at hc
        unfold charDigit
        rw [if_pos hc]
        exact ⟨_, rfl⟩
      rw [digitsVal, hv]
      exact ih (fun c hc => h c (by simp [hc])) _
  obtain ⟨n, hn⟩ := key d hd 0
  refine ⟨n, ?_⟩
  unfold parseNat
  cases d with
  | nil => exact absurd rfl hne
  | cons c t => exact hn

theorem mem_takeWhile_digits (s : Str) : ∀ c ∈ s.takeWhile isDigit, isDigit c = true := by
  induction s with
  | nil => simp
  | cons a t ih =>
    intro c hc
    by_cases ha : isDigit a = true
    · rw [List.takeWhile_cons_of_pos ha] at hc
      rcases List.mem_cons.1 hc with rfl | hc
      · exact ha
      · exact ih c hc
    · rw [List.takeWhile_cons_of_neg ha] at hc
      cases hc

theorem matchResultName_sound {s : Str} {n : Nat} (h : matchResultName s = some n) : LooksLikeResult s n := by
  unfold matchResultName at h
  simp only at h
  split at h
  · cases h
  · rename_i hne
    split at h
    · rename_i hp
      obtain ⟨t, ht⟩ := List.isPrefixOf_iff_prefix.1 hp
      split at h
      · rename_i x post hdrop
        split at h
        · cases h
        · rename_i hx
          refine ⟨[], s.takeWhile isDigit, post, x, ?_, hne, mem_takeWhile_digits s, hx, h⟩
          have h14 : ("_led_positions".toList).length = 14 := by decide
          rw [← ht, ← h14, List.drop_left] at hdrop
          rw [← hdrop, List.nil_append, List.append_assoc, ht, List.takeWhile_append_dropWhile]
      · cases h
    · cases h

theorem matchResultName_complete {d post : Str} {x : Char} {n : Nat} (hne : d ≠ []) (hd : ∀ c ∈ d, isDigit c = true)
    (hx : x ≠ '\n') (hn : parseNat d = some n) :
    matchResultName (d ++ "_led_positions".toList ++ x :: 'c' :: 's' :: 'v' :: post) = some n := by
  have hr : ∀ c t, "_led_positions".toList ++ x :: 'c' :: 's' :: 'v' :: post = c :: t → isDigit c = false := by
    intro c t h
    have h2 : c = '_' := by
      have := congrArg List.head? h
      simpa using this.symm
    rw [h2]; decide
  obtain ⟨h1, h2⟩ := takeWhile_digits_append hd hr
  have h14 : ("_led_positions".toList).length = 14 := by decide
  unfold matchResultName
  simp only [List.append_assoc]
  rw [h1, h2, if_neg hne, if_pos (List.isPrefixOf_iff_prefix.2 (List.prefix_append _ _)), ← h14, List.drop_left]
  simp [hx, hn]

/-- **C29.** A file counts as a result of image `n` only if its name contains a number `n` followed by `_led_positions`, any
character and `csv`. -/
theorem C29_names_sound (name : Str) (n : Nat) (h : searchResultName name = some n) : LooksLikeResult name n := by
  induction name with
  | nil => cases h
  | cons c s ih =>
    rw [searchResultName] at h
    split at h
    · rename_i m hm
      cases h
      exact matchResultName_sound hm
    · obtain ⟨pre, d, post, x, h1, h2⟩ := ih h
      exact ⟨c :: pre, d, post, x, by rw [h1]; rfl, h2⟩

/-- **C29.** Every file whose name contains such a text counts as a result. -/
theorem C29_names_complete (name : Str) (n : Nat) (h : LooksLikeResult name n) : ∃ k, searchResultName name = some k := by
  obtain ⟨pre, d, post, x, rfl, h1, h2, h3, h4⟩ := h
  induction pre with
  | nil =>
    cases d with
    | nil => exact absurd rfl h1
    | cons c d =>
      have := matchResultName_complete (post := post) h1 h2 h3 h4
      exact ⟨n, by
        simp only [List.nil_append, List.cons_append] at this ⊢
        rw [searchResultName, this]⟩
  | cons c pre ih =>
    simp only [List.cons_append]
    rw [searchResultName]
    split
    · exact ⟨_, rfl⟩
    · exact ih

example : LooksLikeResult "old_12_led_positions.csv.bak".toList 12 :=
  C29_names_sound _ _ (by decide +kernel)

end Ledsa
