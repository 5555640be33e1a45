import Verif.Model.FitWarnings
import Mathlib.Data.List.Induction

/-!
# The log of fits that did not converge (C177)
-/

namespace Ledsa

variable {E R : Type}

/-! ### Specification -/

/-- The entries of a plan. -/
def warnsOf : List (PhotoAction E R) → List E
  | [] => []
  | .warn e :: t => e :: warnsOf t
  | .save _ :: t => warnsOf t

/-- The result files of a plan. -/
def savesOf : List (PhotoAction E R) → List R
  | [] => []
  | .warn _ :: t => savesOf t
  | .save r :: t => r :: savesOf t

/-- The work on a photo has come to an end. -/
def PhotoWork.ended (t : PhotoWork E R) : Prop := t.todo = [] ∨ t.phase = .failed

/-- The work on a photo is between two steps of an entry. At most as many photos as there are processes are. -/
def PhotoWork.inEntry (t : PhotoWork E R) : Bool := decide (t.phase = .create ∨ t.phase = .append)

/-- What was done of the plans, photo by photo, and nothing else, has reached log and result files. -/
structure LogRecorded (plans : List (List (PhotoAction E R))) (log : List E) (saved : List R) (s : WarnState E R)
    (dones : List (List (PhotoAction E R))) : Prop where
  length : dones.length = plans.length
  plan : ∀ (i : ℕ) (t : PhotoWork E R), s.tasks[i]? = some t → ∃ d, dones[i]? = some d ∧ plans[i]? = some (d ++ t.todo)
  tasks : s.tasks.length = plans.length
  log : ∃ new, s.log = log ++ new ∧ new.Perm (dones.flatMap warnsOf) ∧ ∀ d ∈ dones, (warnsOf d).Sublist new
  saved : ∃ new, s.saved = saved ++ new ∧ new.Perm (dones.flatMap savesOf) ∧ ∀ d ∈ dones, (savesOf d).Sublist new

theorem warnsOf_append (a b : List (PhotoAction E R)) : warnsOf (a ++ b) = warnsOf a ++ warnsOf b := by
  induction a with
  | nil => rfl
  | cons x a ih => cases x <;> simp [warnsOf, ih]

theorem savesOf_append (a b : List (PhotoAction E R)) : savesOf (a ++ b) = savesOf a ++ savesOf b := by
  induction a with
  | nil => rfl
  | cons x a ih => cases x <;> simp [savesOf, ih]

theorem flatMap_set_perm {α β : Type} (f : α → List β) : ∀ (l : List α) (i : ℕ) (d d' : α) (x : List β), l[i]? = some d → f d' = f d ++ x →
    ((l.set i d').flatMap f).Perm (l.flatMap f ++ x)
  | [], i, d, d', x, h, _ => by simp at h
  | a :: l, 0, d, d', x, h, e => by
    simp only [List.getElem?_cons_zero, Option.some.injEq] at h
    subst h
    simp only [List.set_cons_zero, List.flatMap_cons, e, List.append_assoc]
    exact List.Perm.append_left _ List.perm_append_comm
  | a :: l, i + 1, d, d', x, h, e => by
    simp only [List.getElem?_cons_succ] at h
    simp only [List.set_cons_succ, List.flatMap_cons, List.append_assoc]
    exact List.Perm.append_left _ (flatMap_set_perm f l i d d' x h e)

/-- One more action of photo `i` is done. -/
theorem LogRecorded.act {plans : List (List (PhotoAction E R))} {log : List E} {saved : List R} {s : WarnState E R}
    {dones : List (List (PhotoAction E R))} (h : LogRecorded plans log saved s dones) {i : ℕ} {t : PhotoWork E R} (ht : s.tasks[i]? = some t)
    {a : PhotoAction E R} {rest : List (PhotoAction E R)} (hto : t.todo = a :: rest) (s' : WarnState E R)
    (hl : s'.log = s.log ++ warnsOf [a]) (hs : s'.saved = s.saved ++ savesOf [a]) (hT : s'.tasks = s.tasks.set i ⟨rest, .check⟩) :
    ∃ dones', LogRecorded plans log saved s' dones' := by
  obtain ⟨d, hd, hp⟩ := h.plan i t ht
  have hi : i < s.tasks.length := (List.getElem?_eq_some_iff.1 ht).1
  have hid : i < dones.length := (List.getElem?_eq_some_iff.1 hd).1
  have hsub : ∀ {β : Type} (f : List (PhotoAction E R) → List β) (_ : ∀ x y, f (x ++ y) = f x ++ f y) (new : List β),
      (∀ d ∈ dones, (f d).Sublist new) → ∀ d' ∈ dones.set i (d ++ [a]), (f d').Sublist (new ++ f [a]) := by
    intro β f hf new hn d' hd'
    rcases List.mem_or_eq_of_mem_set hd' with h1 | rfl
    · exact (hn d' h1).trans (List.sublist_append_left _ _)
    · rw [hf]
      exact (hn d (List.mem_of_getElem? hd)).append (List.Sublist.refl _)
  refine ⟨dones.set i (d ++ [a]), ⟨by simp [h.length], ?_, by rw [hT]; simp [h.tasks], ?_, ?_⟩⟩
  · intro j u hu
    rw [hT, List.getElem?_set] at hu
    by_cases hij : i = j
    · subst hij
      simp only [if_true, hi, Option.some.injEq] at hu
      subst hu
      refine ⟨d ++ [a], by simp [hid], ?_⟩
      rw [hp, hto]
      simp
    · simp only [hij, if_false] at hu
      obtain ⟨d', e1, e2⟩ := h.plan j u hu
      exact ⟨d', by simp [hij, e1], e2⟩
  · obtain ⟨new, e1, e2, e3⟩ := h.log
    exact ⟨new ++ warnsOf [a], by rw [hl, e1, List.append_assoc],
      (e2.append_right _).trans (flatMap_set_perm _ _ _ _ _ _ hd (warnsOf_append _ _)).symm, hsub _ warnsOf_append _ e3⟩
  · obtain ⟨new, e1, e2, e3⟩ := h.saved
    exact ⟨new ++ savesOf [a], by rw [hs, e1, List.append_assoc],
      (e2.append_right _).trans (flatMap_set_perm _ _ _ _ _ _ hd (savesOf_append _ _)).symm, hsub _ savesOf_append _ e3⟩

/-- Steps within an action. -/
theorem LogRecorded.wait {plans : List (List (PhotoAction E R))} {log : List E} {saved : List R} {s : WarnState E R}
    {dones : List (List (PhotoAction E R))} (h : LogRecorded plans log saved s dones) {i : ℕ} {t : PhotoWork E R} (ht : s.tasks[i]? = some t)
    (p : WarnPhase) (s' : WarnState E R) (hl : s'.log = s.log) (hs : s'.saved = s.saved) (hT : s'.tasks = s.tasks.set i ⟨t.todo, p⟩) :
    LogRecorded plans log saved s' dones := by
  have hi : i < s.tasks.length := (List.getElem?_eq_some_iff.1 ht).1
  refine ⟨h.length, ?_, by rw [hT]; simp [h.tasks], by rw [hl]; exact h.log, by rw [hs]; exact h.saved⟩
  intro j u hu
  rw [hT, List.getElem?_set] at hu
  by_cases hij : i = j
  · subst hij
    simp only [if_true, hi, Option.some.injEq] at hu
    subst hu
    exact h.plan i t ht
  · simp only [hij, if_false] at hu
    exact h.plan j u hu

theorem warnRun_inv (P : WarnState E R → Prop) (hstep : ∀ s i, P s → P (warnStep s i)) (sched : List ℕ) : ∀ s, P s → P (warnRun s sched) := by
  unfold warnRun
  induction sched with
  | nil => exact fun s h => h
  | cons i sched ih => exact fun s h => ih _ (hstep s i h)

theorem LogRecorded.step {plans : List (List (PhotoAction E R))} {log : List E} {saved : List R} (s : WarnState E R) (i : ℕ)
    (h : ∃ dones, LogRecorded plans log saved s dones) : ∃ dones, LogRecorded plans log saved (warnStep s i) dones := by
  obtain ⟨dones, h⟩ := h
  unfold warnStep
  split
  · exact ⟨dones, h⟩
  · rename_i t ht
    split
    · rename_i r rest hph hto
      exact h.act ht hto _ (by simp [warnsOf]) (by simp [savesOf]) rfl
    · exact ⟨dones, h.wait ht _ _ rfl rfl rfl⟩
    · split
      · exact ⟨dones, h.wait ht _ _ rfl rfl rfl⟩
      · exact ⟨dones, h.wait ht _ _ rfl rfl rfl⟩
    · rename_i e rest hph hto
      split
      · exact h.act ht hto _ (by simp [warnsOf]) (by simp [savesOf]) rfl
      · exact ⟨dones, h.wait ht _ _ rfl rfl rfl⟩
    · exact ⟨dones, h⟩

/-- **C177.** Whatever the order of the steps and wherever step 3 is stopped: the log has grown by the entries of the fits that were logged so
far, each once, those of a photo in their order, and by nothing else; likewise the result files. -/
theorem C177_log (dir : Bool) (log : List E) (saved : List R) (plans : List (List (PhotoAction E R))) (sched : List ℕ) :
    ∃ dones, LogRecorded plans log saved (warnRun (warnStart dir log saved plans) sched) dones := by
  refine warnRun_inv (fun s => ∃ dones, LogRecorded plans log saved s dones) (fun s i => LogRecorded.step s i) sched _ ?_
  refine ⟨plans.map fun _ => [], ⟨by simp, ?_, by simp [warnStart], ⟨[], by simp [warnStart], ?_, ?_⟩, ⟨[], by simp [warnStart], ?_, ?_⟩⟩⟩
  · intro i t ht
    simp only [warnStart, List.getElem?_map, Option.map_eq_some_iff] at ht
    obtain ⟨p, hp, rfl⟩ := ht
    exact ⟨[], by rw [List.getElem?_map, hp]; rfl, by simp [hp]⟩
  · rw [List.flatMap_map]; simp [warnsOf]
  · intro d hd
    simp only [List.mem_map] at hd
    obtain ⟨_, _, rfl⟩ := hd
    exact List.Sublist.refl _
  · rw [List.flatMap_map]; simp [savesOf]
  · intro d hd
    simp only [List.mem_map] at hd
    obtain ⟨_, _, rfl⟩ := hd
    exact List.Sublist.refl _

/-- **C177.** If the work on all photos ended without an exception, every fit that did not converge is in the log exactly once and every
result file is written. -/
theorem C177_complete (dir : Bool) (log : List E) (saved : List R) (plans : List (List (PhotoAction E R))) (sched : List ℕ)
    (h : ∀ t ∈ (warnRun (warnStart dir log saved plans) sched).tasks, t.todo = []) :
    (∃ new, (warnRun (warnStart dir log saved plans) sched).log = log ++ new ∧ new.Perm (plans.flatMap warnsOf) ∧
      ∀ p ∈ plans, (warnsOf p).Sublist new) ∧
    ∃ new, (warnRun (warnStart dir log saved plans) sched).saved = saved ++ new ∧ new.Perm (plans.flatMap savesOf) ∧
      ∀ p ∈ plans, (savesOf p).Sublist new := by
  obtain ⟨dones, hr⟩ := C177_log dir log saved plans sched
  have e : dones = plans := by
    apply List.ext_getElem?
    intro i
    by_cases hi : i < plans.length
    · have hi' : i < (warnRun (warnStart dir log saved plans) sched).tasks.length := by rw [hr.tasks]; exact hi
      obtain ⟨d, e1, e2⟩ := hr.plan i _ (List.getElem?_eq_getElem hi')
      rw [h _ (List.getElem_mem hi'), List.append_nil] at e2
      rw [e1, e2]
    · rw [List.getElem?_eq_none (by rw [hr.length]; omega), List.getElem?_eq_none (by omega)]
  rw [e] at hr
  exact ⟨hr.log, hr.saved⟩

/-! ### Exceptions -/

/-- The numbers of photos in phases change with one photo. -/
theorem countP_set_eq {α : Type} (p : α → Bool) : ∀ (l : List α) (i : ℕ) (t u : α), l[i]? = some t →
    (l.set i u).countP p + (if p t then 1 else 0) = l.countP p + (if p u then 1 else 0)
  | [], i, t, u, h => by simp at h
  | a :: l, 0, t, u, h => by
    simp only [List.getElem?_cons_zero, Option.some.injEq] at h
    subst h
    simp only [List.set_cons_zero, List.countP_cons]
    omega
  | a :: l, i + 1, t, u, h => by
    simp only [List.getElem?_cons_succ] at h
    have := countP_set_eq p l i t u h
    simp only [List.set_cons_succ, List.countP_cons]
    omega

/-- Number of photos whose work is in a phase. -/
def WarnState.count (s : WarnState E R) (p : WarnPhase) : ℕ := s.tasks.countP fun t => decide (t.phase = p)

/-- Number of photos between two steps of an entry. -/
def WarnState.entries (s : WarnState E R) : ℕ := s.tasks.countP PhotoWork.inEntry

theorem WarnState.create_le (s : WarnState E R) : s.count .create ≤ s.entries := by
  apply List.countP_mono_left
  intro t _ h
  simp only [decide_eq_true_eq] at h
  simp [PhotoWork.inEntry, h]

/-- What stays true while at most `n` photos are between two steps of an entry. -/
def FewFailures (n : ℕ) (s : WarnState E R) : Prop :=
  (s.dir = false → s.count .failed = 0 ∧ s.count .append = 0) ∧ (s.dir = true → s.count .failed + s.count .create + 1 ≤ n ∨ s.count .failed + s.count .create = 0)

theorem fewFailures_step {n : ℕ} (s : WarnState E R) (i : ℕ) (hn : s.entries ≤ n) (h : FewFailures n s) : FewFailures n (warnStep s i) := by
  have hc := s.create_le
  unfold warnStep
  split
  · exact h
  · rename_i t ht
    have hcnt : ∀ (u : PhotoWork E R) (p : WarnPhase), ((s.tasks.set i u).countP fun t => decide (t.phase = p)) +
        (if t.phase = p then 1 else 0) = s.count p + (if u.phase = p then 1 else 0) := by
      intro u p
      have := countP_set_eq (fun t : PhotoWork E R => decide (t.phase = p)) s.tasks i t u ht
      simpa [WarnState.count] using this
    split
    · rename_i r rest hph hto
      have h1 := hcnt ⟨rest, .check⟩ .failed
      have h2 := hcnt ⟨rest, .check⟩ .create
      have h3 := hcnt ⟨rest, .check⟩ .append
      simp only [hph, reduceCtorEq, if_false, Nat.add_zero] at h1 h2 h3
      unfold FewFailures WarnState.count at h ⊢
      simp only [WarnState.count] at h1 h2 h3
      rw [h1, h2, h3]
      exact h
    · rename_i e rest hph hto
      by_cases hd : s.dir = true
      · simp only [hd, if_true]
        have h1 := hcnt ⟨t.todo, .append⟩ .failed
        have h2 := hcnt ⟨t.todo, .append⟩ .create
        simp only [hph, reduceCtorEq, if_false, Nat.add_zero] at h1 h2
        unfold FewFailures WarnState.count at h ⊢
        simp only [WarnState.count] at h1 h2
        rw [h1, h2]
        exact ⟨fun hx => by simp at hx, fun _ => h.2 hd⟩
      · have hd' : s.dir = false := by simpa using hd
        simp only [hd', Bool.false_eq_true, if_false]
        have h1 := hcnt ⟨t.todo, .create⟩ .failed
        have h3 := hcnt ⟨t.todo, .create⟩ .append
        simp only [hph, reduceCtorEq, if_false, Nat.add_zero] at h1 h3
        refine ⟨fun _ => ?_, fun hx => by simp at hx⟩
        have := h.1 hd'
        unfold WarnState.count at this ⊢
        simp only [WarnState.count] at h1 h3
        rw [h1, h3]
        exact this
    · rename_i hph
      by_cases hd : s.dir = true
      · simp only [hd, if_true]
        have h1 := hcnt ⟨t.todo, .failed⟩ .failed
        have h2 := hcnt ⟨t.todo, .failed⟩ .create
        simp only [hph, reduceCtorEq, if_false, if_true, Nat.add_zero] at h1 h2
        refine ⟨fun hx => by simp at hx, fun _ => ?_⟩
        have := h.2 hd
        unfold WarnState.count at this h1 h2 ⊢
        simp only at h1 h2 ⊢
        rcases this with h3 | h3
        · left; omega
        · omega
      · have hd' : s.dir = false := by simpa using hd
        simp only [hd', Bool.false_eq_true, if_false]
        have h1 := hcnt ⟨t.todo, .append⟩ .failed
        have h2 := hcnt ⟨t.todo, .append⟩ .create
        simp only [hph, reduceCtorEq, if_false, if_true, Nat.add_zero] at h1 h2
        refine ⟨fun hx => by simp at hx, fun _ => ?_⟩
        have := h.1 hd'
        have h4 := Nat.le_trans hc hn
        unfold WarnState.count at this h1 h2 h4 ⊢
        simp only at h1 h2 ⊢
        left; omega
    · rename_i e rest hph hto
      by_cases hd : s.dir = true
      · simp only [hd, if_true]
        have h1 := hcnt ⟨rest, .check⟩ .failed
        have h2 := hcnt ⟨rest, .check⟩ .create
        simp only [hph, reduceCtorEq, if_false, Nat.add_zero] at h1 h2
        unfold FewFailures WarnState.count at h ⊢
        simp only [WarnState.count] at h1 h2
        rw [h1, h2]
        exact ⟨fun hx => by simp at hx, fun _ => h.2 hd⟩
      · exfalso
        have := (h.1 (by simpa using hd)).2
        unfold WarnState.count at this
        rw [List.countP_eq_zero] at this
        exact this t (List.mem_of_getElem? ht) (by simp [hph])
    · exact h

theorem warnRun_append (s : WarnState E R) (a b : List ℕ) : warnRun s (a ++ b) = warnRun (warnRun s a) b := by
  unfold warnRun
  rw [List.foldl_append]

/-- **C177.** With `n` processes fewer than `n` photos can fail; with one process none does. -/
theorem C177_failures (n : ℕ) (hn : 1 ≤ n) (dir : Bool) (log : List E) (saved : List R) (plans : List (List (PhotoAction E R))) (sched : List ℕ)
    (h : ∀ pre, pre <+: sched → (warnRun (warnStart dir log saved plans) pre).entries ≤ n) :
    (warnRun (warnStart dir log saved plans) sched).count .failed < n := by
  have hz : ∀ p : WarnPhase, p ≠ .check → (warnStart dir log saved plans).count p = 0 := by
    intro p hp
    unfold WarnState.count warnStart
    rw [List.countP_map, List.countP_eq_zero]
    intro x _
    simpa using fun h => hp h.symm
  have key : ∀ l : List ℕ, l <+: sched → FewFailures n (warnRun (warnStart dir log saved plans) l) := by
    intro l
    induction l using List.reverseRecOn with
    | nil =>
      intro _
      exact ⟨fun _ => ⟨hz _ (by decide), hz _ (by decide)⟩, fun _ => Or.inr (by
        show (warnStart dir log saved plans).count _ + (warnStart dir log saved plans).count _ = 0
        rw [hz _ (by decide), hz _ (by decide)])⟩
    | append_singleton l i ih =>
      intro hp
      have hp' : l <+: sched := (List.prefix_append _ _).trans hp
      rw [warnRun_append]
      exact fewFailures_step _ i (h l hp') (ih hp')
  have := key sched (List.prefix_refl _)
  cases hd : (warnRun (warnStart dir log saved plans) sched).dir with
  | false => have := (this.1 hd).1; omega
  | true =>
    rcases this.2 hd with h1 | h1 <;> omega

/-- **C177.** If the directory of the log exists, no photo fails, whatever the number of processes. -/
theorem C177_directory (log : List E) (saved : List R) (plans : List (List (PhotoAction E R))) (sched : List ℕ) :
    ∀ t ∈ (warnRun (warnStart true log saved plans) sched).tasks, t.phase = .check ∨ t.phase = .append := by
  have := warnRun_inv (fun s : WarnState E R => s.dir = true ∧ ∀ t ∈ s.tasks, t.phase = .check ∨ t.phase = .append) (by
    rintro s i ⟨hd, ht⟩
    unfold warnStep
    split
    · exact ⟨hd, ht⟩
    · rename_i t hi
      have hm := ht t (List.mem_of_getElem? hi)
      split
      · refine ⟨hd, fun u hu => ?_⟩
        rcases List.mem_or_eq_of_mem_set hu with h | rfl
        · exact ht u h
        · exact Or.inl rfl
      · refine ⟨hd, fun u hu => ?_⟩
        rcases List.mem_or_eq_of_mem_set hu with h | rfl
        · exact ht u h
        · simp [hd]
      · rename_i hph
        rw [hph] at hm
        simp at hm
      · rw [if_pos hd]
        refine ⟨hd, fun u hu => ?_⟩
        rcases List.mem_or_eq_of_mem_set hu with h | rfl
        · exact ht u h
        · exact Or.inl rfl
      · exact ⟨hd, ht⟩) sched (warnStart true log saved plans) ⟨rfl, by
    intro t ht
    simp only [warnStart, List.mem_map] at ht
    obtain ⟨_, _, rfl⟩ := ht
    exact Or.inl rfl⟩
  exact this.2

/-- **C177.** A photo only fails when the directory exists by then; another run of step 3 therefore never fails. -/
theorem C177_again (dir : Bool) (log : List E) (saved : List R) (plans : List (List (PhotoAction E R))) (sched : List ℕ)
    (hf : ∃ t ∈ (warnRun (warnStart dir log saved plans) sched).tasks, t.phase = .failed) :
    (warnRun (warnStart dir log saved plans) sched).dir = true := by
  have := warnRun_inv (fun s : WarnState E R => (∃ t ∈ s.tasks, t.phase = .failed ∨ t.phase = .append) → s.dir = true) (by
    intro s i h
    unfold warnStep
    split
    · exact h
    · rename_i t hi
      have keep : ∀ u : PhotoWork E R, (u.phase = .failed ∨ u.phase = .append → s.dir = true) →
          (∃ t ∈ s.tasks.set i u, t.phase = .failed ∨ t.phase = .append) → s.dir = true := by
        rintro u hu ⟨x, hx, hp⟩
        rcases List.mem_or_eq_of_mem_set hx with h' | rfl
        · exact h ⟨x, h', hp⟩
        · exact hu hp
      split
      · exact keep _ (by simp)
      · refine keep _ ?_
        cases hd : s.dir <;> simp
      · split
        · exact fun _ => by assumption
        · exact fun _ => rfl
      · rename_i hph _
        have hd := h ⟨t, List.mem_of_getElem? hi, Or.inr hph⟩
        rw [if_pos hd]
        exact keep _ (by simp)
      · exact h) sched (warnStart dir log saved plans) (by
    rintro ⟨t, ht, hp⟩
    simp only [warnStart, List.mem_map] at ht
    obtain ⟨_, _, rfl⟩ := ht
    simp at hp)
  obtain ⟨t, ht, hp⟩ := hf
  exact this ⟨t, ht, Or.inl hp⟩

/-- Steps that are left for a photo. -/
def PhotoWork.left (t : PhotoWork E R) : ℕ :=
  match t.phase with
  | .check => 3 * t.todo.length
  | .create => 3 * t.todo.length - 1
  | .append => 3 * t.todo.length - 2
  | .failed => 0

/-- Entries are begun for fits only. -/
def WellPlaced (s : WarnState E R) : Prop := ∀ t ∈ s.tasks, (t.phase = .create ∨ t.phase = .append) → ∃ e rest, t.todo = .warn e :: rest

theorem wellPlaced_step (s : WarnState E R) (i : ℕ) (h : WellPlaced s) : WellPlaced (warnStep s i) := by
  have keep : ∀ u : PhotoWork E R, ((u.phase = .create ∨ u.phase = .append) → ∃ e rest, u.todo = .warn e :: rest) →
      ∀ t ∈ s.tasks.set i u, (t.phase = .create ∨ t.phase = .append) → ∃ e rest, t.todo = .warn e :: rest := by
    intro u hu t ht
    rcases List.mem_or_eq_of_mem_set ht with h' | rfl
    · exact h t h'
    · exact hu
  unfold warnStep
  split
  · exact h
  · rename_i t hi
    split
    · exact keep _ (by simp)
    · rename_i e rest _ hto
      exact keep _ fun _ => ⟨e, rest, hto⟩
    · rename_i hph
      have := h t (List.mem_of_getElem? hi) (Or.inl hph)
      split
      · exact keep _ fun _ => this
      · exact keep _ fun _ => this
    · split
      · exact keep _ (by simp)
      · exact keep _ (by simp)
    · exact h

theorem sum_set_lt {α : Type} (f : α → ℕ) : ∀ (l : List α) (i : ℕ) (t u : α), l[i]? = some t → f u < f t →
    ((l.set i u).map f).sum < (l.map f).sum
  | [], i, t, u, h, _ => by simp at h
  | a :: l, 0, t, u, h, hlt => by
    simp only [List.getElem?_cons_zero, Option.some.injEq] at h
    subst h
    simpa using hlt
  | a :: l, i + 1, t, u, h, hlt => by
    simp only [List.getElem?_cons_succ] at h
    have := sum_set_lt f l i t u h hlt
    simpa using this

theorem warnStep_left (s : WarnState E R) (i : ℕ) (t : PhotoWork E R) (hi : s.tasks[i]? = some t) (hw : WellPlaced s) (hne : ¬ t.ended) :
    ((warnStep s i).tasks.map PhotoWork.left).sum < (s.tasks.map PhotoWork.left).sum := by
  obtain ⟨todo, phase⟩ := t
  have hm := hw _ (List.mem_of_getElem? hi)
  simp only [PhotoWork.ended, not_or] at hne
  obtain ⟨h1, h2⟩ := hne
  unfold warnStep
  rw [hi]
  cases phase with
  | failed => exact absurd rfl h2
  | check =>
    cases todo with
    | nil => exact absurd rfl h1
    | cons a rest =>
      cases a with
      | save r => exact sum_set_lt _ _ _ _ _ hi (by simp [PhotoWork.left])
      | warn e =>
        refine sum_set_lt _ _ _ _ _ hi ?_
        dsimp only
        cases s.dir <;> simp only [PhotoWork.left, List.length_cons, Bool.false_eq_true, if_false, if_true] <;> omega
  | create =>
    obtain ⟨e, rest, rfl⟩ := hm (Or.inl rfl)
    dsimp only
    cases hd : s.dir
    · simp only [Bool.false_eq_true, if_false]
      refine sum_set_lt _ _ _ _ _ hi ?_
      simp only [PhotoWork.left, List.length_cons]
      omega
    · simp only [if_true]
      refine sum_set_lt _ _ _ _ _ hi ?_
      simp only [PhotoWork.left, List.length_cons]
      omega
  | append =>
    obtain ⟨e, rest, rfl⟩ := hm (Or.inr rfl)
    dsimp only
    split
    · refine sum_set_lt _ _ _ _ _ hi ?_
      simp only [PhotoWork.left, List.length_cons]
      omega
    · refine sum_set_lt _ _ _ _ _ hi ?_
      simp only [PhotoWork.left, List.length_cons]
      omega

/-- **C177.** Photos do not wait for each other: every execution can be continued until the work on all photos has ended, and every step of
a photo that has not ended brings it nearer to that. -/
theorem C177_ends (dir : Bool) (log : List E) (saved : List R) (plans : List (List (PhotoAction E R))) (sched : List ℕ) :
    ∃ more, ∀ t ∈ (warnRun (warnStart dir log saved plans) (sched ++ more)).tasks, t.ended := by
  have hw : WellPlaced (warnRun (warnStart dir log saved plans) sched) := warnRun_inv WellPlaced wellPlaced_step sched _ (by
    intro t ht
    simp only [warnStart, List.mem_map] at ht
    obtain ⟨_, _, rfl⟩ := ht
    simp)
  have key : ∀ (n : ℕ) (s : WarnState E R), WellPlaced s → (s.tasks.map PhotoWork.left).sum ≤ n →
      ∃ more, ∀ t ∈ (warnRun s more).tasks, t.ended := by
    intro n
    induction n with
    | zero =>
      intro s hs hn
      by_cases h : ∀ t ∈ s.tasks, t.ended
      · exact ⟨[], h⟩
      · push Not at h
        obtain ⟨t, ht, hne⟩ := h
        obtain ⟨i, hi⟩ := List.mem_iff_getElem?.1 ht
        have := warnStep_left s i t hi hs hne
        omega
    | succ n ih =>
      intro s hs hn
      by_cases h : ∀ t ∈ s.tasks, t.ended
      · exact ⟨[], h⟩
      · push Not at h
        obtain ⟨t, ht, hne⟩ := h
        obtain ⟨i, hi⟩ := List.mem_iff_getElem?.1 ht
        have := warnStep_left s i t hi hs hne
        obtain ⟨more, hmore⟩ := ih (warnStep s i) (wellPlaced_step s i hs) (by omega)
        exact ⟨i :: more, hmore⟩
  obtain ⟨more, h⟩ := key _ _ hw (Nat.le_refl _)
  exact ⟨more, by rw [warnRun_append]; exact h⟩

/-- **C177.** One process, or a log directory that exists: when all work has ended, log and result files are complete. -/
theorem C177_one_process (dir : Bool) (log : List E) (saved : List R) (plans : List (List (PhotoAction E R))) (sched : List ℕ)
    (h : dir = true ∨ ∀ pre, pre <+: sched → (warnRun (warnStart dir log saved plans) pre).entries ≤ 1)
    (hend : ∀ t ∈ (warnRun (warnStart dir log saved plans) sched).tasks, t.ended) :
    ∀ t ∈ (warnRun (warnStart dir log saved plans) sched).tasks, t.todo = [] := by
  intro t ht
  rcases hend t ht with h1 | h1
  · exact h1
  · exfalso
    rcases h with rfl | h
    · have := C177_directory log saved plans sched t ht
      rw [h1] at this
      simp at this
    · have := C177_failures 1 (Nat.le_refl _) dir log saved plans sched h
      have h0 : (warnRun (warnStart dir log saved plans) sched).count .failed = 0 := by omega
      unfold WarnState.count at h0
      rw [List.countP_eq_zero] at h0
      exact h0 t ht (by simp [h1])

/-- Step 3 delivers all results and logs every fit that did not converge exactly once, whatever the number of processes. -/
def WarningsDoNotStop : Prop := ∀ (plans : List (List (PhotoAction ℕ ℕ))) (sched : List ℕ),
  (∀ t ∈ (warnRun (warnStart false [] [] plans) sched).tasks, t.ended) →
  (warnRun (warnStart false [] [] plans) sched).saved.Perm (plans.flatMap savesOf) ∧
    (warnRun (warnStart false [] [] plans) sched).log.Perm (plans.flatMap warnsOf)

/-- **C177 refuted**: two processes find that the directory does not exist; the second one to create it stops with `FileExistsError`, its
photo has no result file and its fit no entry. -/
theorem C177_false : ¬ WarningsDoNotStop := by
  intro h
  have := (h [[.warn 7, .save 1], [.warn 8, .save 2]] [0, 1, 0, 1, 0, 0] (by unfold PhotoWork.ended; decide)).1.length_eq
  revert this
  decide

-- taken up again, the photo is complete
example : warnRun (warnStart true [7] [1] [[.warn 8, .save 2]]) [0, 0, 0] =
    (⟨true, [7, 8], [1, 2], [⟨[], .check⟩]⟩ : WarnState ℕ ℕ) := by decide

/-- The entries of a photo can be in the log twice: logged, stopped at the next channel, logged again by the run that takes it up. -/
theorem C177_twice_false : ∃ (plans : List (List (PhotoAction ℕ ℕ))) (sched sched' : List ℕ),
    (warnRun (warnStart (warnRun (warnStart false [] [] plans) sched).dir (warnRun (warnStart false [] [] plans) sched).log
      (warnRun (warnStart false [] [] plans) sched).saved plans) sched').log = [7, 7] ∧ plans.flatMap warnsOf = [7] :=
  ⟨[[.warn 7, .save 1]], [0, 0, 0], [0, 0, 0], by decide⟩

/-- **C177.** Which fits are logged: those of the measured LEDs of the channel that did not converge, under their channel, array and LED;
every channel is saved. -/
theorem C177_plan (channels : List ℕ) (skip : ℕ) (arrays : List (List ℕ)) (converged : ℕ → ℕ → Bool) :
    (∀ c a l, (c, a, l) ∈ warnsOf (photoPlan channels skip arrays converged) ↔
      c ∈ channels ∧ (∃ A, arrays[a]? = some A ∧ l ∈ A) ∧ (skip + 1) ∣ l ∧ converged c l = false) ∧
    savesOf (photoPlan channels skip arrays converged) = channels := by
  have hw : ∀ (l : List (ℕ × ℕ × ℕ)), warnsOf (l.map (PhotoAction.warn (R := ℕ))) = l ∧ savesOf (l.map (PhotoAction.warn (R := ℕ))) = [] := by
    intro l
    induction l with
    | nil => exact ⟨rfl, rfl⟩
    | cons x l ih => exact ⟨by simp [warnsOf, ih.1], by simp [savesOf, ih.2]⟩
  have hplan : ∀ c, (arrays.zipIdx.flatMap fun a => (a.1.filter fun l => l % (skip + 1) == 0 && !converged c l).map fun l =>
      PhotoAction.warn (R := ℕ) (c, a.2, l)) = (arrays.zipIdx.flatMap fun a => (a.1.filter fun l =>
        l % (skip + 1) == 0 && !converged c l).map fun l => (c, a.2, l)).map .warn := by
    intro c
    rw [List.map_flatMap]
    simp [List.map_map, Function.comp_def]
  have hboth : ∀ cs : List ℕ, warnsOf (photoPlan cs skip arrays converged) = cs.flatMap (fun c => arrays.zipIdx.flatMap fun a =>
      (a.1.filter fun l => l % (skip + 1) == 0 && !converged c l).map fun l => (c, a.2, l)) ∧
      savesOf (photoPlan cs skip arrays converged) = cs := by
    intro cs
    unfold photoPlan
    induction cs with
    | nil => exact ⟨rfl, rfl⟩
    | cons c cs ih =>
      constructor
      · rw [List.flatMap_cons, warnsOf_append, warnsOf_append, hplan c, (hw _).1, ih.1]
        simp [warnsOf]
      · rw [List.flatMap_cons, savesOf_append, savesOf_append, hplan c, (hw _).2, ih.2]
        simp [savesOf]
  refine ⟨?_, (hboth channels).2⟩
  intro c a l
  rw [(hboth channels).1]
  simp only [List.mem_flatMap, List.mem_map, List.mem_filter, Bool.and_eq_true, beq_iff_eq, Bool.not_eq_true', Prod.mk.injEq,
    Prod.exists]
  constructor
  · rintro ⟨c', hc, A, k, hA, l', ⟨hl, hd, hv⟩, rfl, rfl, rfl⟩
    rw [List.mem_zipIdx_iff_getElem?] at hA
    exact ⟨hc, ⟨A, hA, hl⟩, Nat.dvd_of_mod_eq_zero hd, hv⟩
  · rintro ⟨hc, ⟨A, hA, hl⟩, hd, hv⟩
    exact ⟨c, hc, A, a, List.mem_zipIdx_iff_getElem?.2 hA, l, ⟨hl, Nat.mod_eq_zero_of_dvd hd, hv⟩, rfl, rfl, rfl⟩

example : photoPlan [0, 2] 1 [[2, 3], [4]] (fun c l => c == 0 || l == 2) = [.save 0, .warn (2, 1, 4), .save 2] := by decide

/-! ### The text of an entry -/

/-- A text without white space and brackets. -/
def FitToken (t : Str) : Prop := t ≠ [] ∧ ∀ c ∈ t, isWs c = false ∧ c ≠ '[' ∧ c ≠ ']'

/-- White space. -/
def Blank (w : Str) : Prop := ∀ c ∈ w, isWs c = true

/-- `np.array_str` of numbers: brackets, numbers separated by white space (lines are wrapped), possibly padded next to the brackets. -/
def arrayText (w0 : Str) (init : List (Str × Str)) (last wn : Str) : Str := '[' :: (w0 ++ (spaced init ++ (last ++ (wn ++ [']']))))

theorem splitWsAux_nonempty : ∀ (s cur : Str), (∃ c ∈ s, isWs c = false) ∨ cur ≠ [] → splitWsAux cur s ≠ []
  | [], cur, h => by
    rcases h with ⟨c, hc, _⟩ | h
    · simp at hc
    · simp [splitWsAux, h]
  | x :: s, cur, h => by
    unfold splitWsAux
    by_cases hx : isWs x = true
    · rw [if_pos hx]
      by_cases hcur : cur = []
      · rw [if_pos hcur]
        apply splitWsAux_nonempty s []
        rcases h with ⟨c, hc, hw⟩ | h
        · left
          rcases List.mem_cons.1 hc with rfl | hc
          · rw [hx] at hw; simp at hw
          · exact ⟨c, hc, hw⟩
        · exact absurd hcur h
      · rw [if_neg hcur]; simp
    · rw [if_neg hx]
      exact splitWsAux_nonempty s (x :: cur) (Or.inr (by simp))

theorem joinChar_cons_ne {c : Char} (f : Str) {fs : List Str} (h : fs ≠ []) : joinChar c (f :: fs) = f ++ c :: joinChar c fs := by
  cases fs with
  | nil => exact absurd rfl h
  | cons g gs => rfl

/-- A token and the white space after it. -/
theorem collapse_token (cur t w rest : Str) (ht : ∀ c ∈ t, isWs c = false) (hne : cur ≠ [] ∨ t ≠ []) (hw : Blank w) (hw0 : w ≠ [])
    (hr : ∃ c ∈ rest, isWs c = false) :
    joinChar ' ' (splitWsAux cur (t ++ (w ++ rest))) = cur.reverse ++ t ++ ' ' :: joinChar ' ' (splitWsAux [] rest) := by
  rw [splitWsAux_token t _ ht]
  cases w with
  | nil => exact absurd rfl hw0
  | cons x w =>
    have hne' : t.reverse ++ cur ≠ [] := by
      rcases hne with h | h <;> simp [h]
    rw [List.cons_append, splitWsAux, if_pos (hw x (by simp)), if_neg hne', splitWsAux_space _ _ (fun c hc => hw c (by simp [hc])),
      joinChar_cons_ne _ (splitWsAux_nonempty rest [] (Or.inl hr))]
    simp

theorem collapse_tail (last wn : Str) (hl : FitToken last) (hn : Blank wn) : ∀ (init : List (Str × Str)) (cur : Str),
    (∀ p ∈ init, FitToken p.1 ∧ p.2 ≠ [] ∧ Blank p.2) →
    joinChar ' ' (splitWsAux cur (spaced init ++ (last ++ (wn ++ [']'])))) =
      cur.reverse ++ joinChar ' ' (init.map (·.1) ++ [last]) ++ (if wn = [] then [] else [' ']) ++ [']']
  | [], cur, _ => by
    have hb : splitWsAux [] [']'] = [[']']] := by decide
    by_cases hw : wn = []
    · subst hw
      simp only [spaced, List.nil_append, List.map_nil, joinChar, if_true, List.append_nil]
      rw [← List.append_nil (last ++ [']']), splitWsAux_token (last ++ [']']) [] (by
        intro c hc
        rcases List.mem_append.1 hc with h | h
        · exact (hl.2 c h).1
        · simp only [List.mem_singleton] at h; subst h; decide)]
      simp [splitWsAux, joinChar]
    · rw [if_neg hw]
      simp only [spaced, List.nil_append, List.map_nil]
      rw [collapse_token cur last wn [']'] (fun c hc => (hl.2 c hc).1) (Or.inr hl.1) hn hw ⟨']', by simp, by decide⟩, hb]
      simp [joinChar]
  | (t, w) :: init, cur, h => by
    obtain ⟨h1, h2, h3⟩ := h (t, w) (by simp)
    have ih := collapse_tail last wn hl hn init [] (fun p hp => h p (by simp [hp]))
    have e : spaced ((t, w) :: init) ++ (last ++ (wn ++ [']'])) = t ++ (w ++ (spaced init ++ (last ++ (wn ++ [']'])))) := by
      simp [spaced]
    rw [e, collapse_token cur t w _ (fun c hc => (h1.2 c hc).1) (Or.inr h1.1) h3 h2 ⟨']', by simp, by decide⟩, ih]
    rw [List.map_cons, List.cons_append, joinChar_cons_ne _ (by simp)]
    simp

theorem collapse_array (w0 : Str) (init : List (Str × Str)) (last wn : Str) (h0 : Blank w0) (hl : FitToken last) (hn : Blank wn)
    (hi : ∀ p ∈ init, FitToken p.1 ∧ p.2 ≠ [] ∧ Blank p.2) :
    joinChar ' ' (splitWs (arrayText w0 init last wn)) =
      '[' :: ((if w0 = [] then [] else [' ']) ++ joinChar ' ' (init.map (·.1) ++ [last]) ++ (if wn = [] then [] else [' ']) ++ [']']) := by
  unfold splitWs arrayText
  by_cases hw : w0 = []
  · subst hw
    rw [splitWsAux, if_neg (by decide), List.nil_append, collapse_tail last wn hl hn init _ hi]
    simp
  · rw [if_neg hw]
    have := collapse_token [] ['['] w0 (spaced init ++ (last ++ (wn ++ [']']))) (by
      intro c hc
      simp only [List.mem_singleton] at hc
      subst hc
      decide) (Or.inr (by simp)) h0 hw ⟨']', by simp, by decide⟩
    rw [collapse_tail last wn hl hn init _ hi] at this
    simpa using this

theorem replaceTwo_skip (a b : Char) (r : Str) (c : Char) (h : c ≠ a) (t : Str) : replaceTwo a b r (c :: t) = c :: replaceTwo a b r t := by
  cases t with
  | nil => rfl
  | cons d t => rw [replaceTwo, if_neg (fun hc => h hc.1)]

theorem replaceTwo_token (a b : Char) (r : Str) (rest : Str) : ∀ t : Str, (∀ c ∈ t, c ≠ a) → replaceTwo a b r (t ++ rest) = t ++ replaceTwo a b r rest
  | [], _ => rfl
  | c :: t, h => by
    rw [List.cons_append, replaceTwo_skip a b r c (h c (by simp)), replaceTwo_token a b r rest t fun d hd => h d (by simp [hd])]
    rfl

theorem replaceTwo_none (a b : Char) (r : Str) (t : Str) (h : ∀ c ∈ t, c ≠ a) : replaceTwo a b r t = t := by
  have := replaceTwo_token a b r [] t h
  simpa [replaceTwo] using this

theorem joinChar_mem (d : Char) : ∀ (ts : List Str), ∀ c ∈ joinChar d ts, c = d ∨ ∃ t ∈ ts, c ∈ t
  | [], c, h => by simp [joinChar] at h
  | [t], c, h => Or.inr ⟨t, by simp, h⟩
  | t :: u :: ts, c, h => by
    rw [joinChar_cons_ne _ (by simp)] at h
    rcases List.mem_append.1 h with h | h
    · exact Or.inr ⟨t, by simp, h⟩
    · rcases List.mem_cons.1 h with h | h
      · exact Or.inl h
      · rcases joinChar_mem d (u :: ts) c h with h | ⟨x, hx, hc⟩
        · exact Or.inl h
        · exact Or.inr ⟨x, by simp [hx], hc⟩

theorem ne_space_of_not_ws {c : Char} (h : isWs c = false) : c ≠ ' ' := by
  rintro rfl
  simp [isWs] at h

/-- The blank before the closing bracket is removed, the others stay. -/
theorem replaceTwo_close (b : Str) (hb : b = [] ∨ b = [' ']) : ∀ ts : List Str, ts ≠ [] → (∀ t ∈ ts, FitToken t) →
    replaceTwo ' ' ']' [']'] (joinChar ' ' ts ++ (b ++ [']'])) = joinChar ' ' ts ++ [']']
  | [], h, _ => absurd rfl h
  | [t], _, h => by
    have ht := h t (by simp)
    simp only [joinChar]
    rw [replaceTwo_token _ _ _ _ t fun c hc => ne_space_of_not_ws (ht.2 c hc).1]
    rcases hb with rfl | rfl
    · rfl
    · simp [replaceTwo]
  | t :: u :: ts, _, h => by
    have ht := h t (by simp)
    have hu := h u (by simp)
    have ih := replaceTwo_close b hb (u :: ts) (by simp) fun x hx => h x (by simp [hx])
    rw [joinChar_cons_ne _ (by simp), List.append_assoc, replaceTwo_token _ _ _ _ t fun c hc => ne_space_of_not_ws (ht.2 c hc).1]
    have hj : ∃ c rest, joinChar ' ' (u :: ts) ++ (b ++ [']']) = c :: rest ∧ c ≠ ']' := by
      obtain ⟨c, u', rfl⟩ := List.exists_cons_of_ne_nil hu.1
      have hc := (hu.2 c (by simp)).2.2
      cases ts with
      | nil => exact ⟨c, _, rfl, hc⟩
      | cons v vs => exact ⟨c, _, rfl, hc⟩
    obtain ⟨c, rest, e, hc⟩ := hj
    rw [List.cons_append, e, replaceTwo, if_neg (fun h => hc h.2), ← e, ih]
    simp

theorem replaceTwo_open (a : Str) (ha : a = [] ∨ a = [' ']) (body : Str) (hb : ∀ c ∈ body, c ≠ '[') (h0 : ∃ c rest, body = c :: rest ∧ c ≠ ' ') :
    replaceTwo '[' ' ' ['['] ('[' :: (a ++ body)) = '[' :: body := by
  rcases ha with rfl | rfl
  · obtain ⟨c, rest, rfl, hc⟩ := h0
    rw [List.nil_append, replaceTwo, if_neg (fun h => hc h.2), replaceTwo_none _ _ _ _ hb]
  · rw [List.cons_append, List.nil_append, replaceTwo, if_pos ⟨rfl, rfl⟩, replaceTwo_none _ _ _ _ hb]
    rfl

theorem map_token (t : Str) (h : ∀ c ∈ t, isWs c = false) : (t.map fun c => if c = ' ' then ',' else c) = t := by
  have : ∀ c ∈ t, (if c = ' ' then ',' else c) = c := fun c hc => if_neg (ne_space_of_not_ws (h c hc))
  calc _ = t.map id := List.map_congr_left this
    _ = t := List.map_id t

theorem map_join : ∀ ts : List Str, (∀ t ∈ ts, FitToken t) → (joinChar ' ' ts).map (fun c => if c = ' ' then ',' else c) = joinChar ',' ts
  | [], _ => rfl
  | [t], h => map_token t fun c hc => ((h t (by simp)).2 c hc).1
  | t :: u :: ts, h => by
    rw [joinChar_cons_ne (c := ' ') t (by simp), joinChar_cons_ne (c := ',') t (by simp), List.map_append, List.map_cons, map_join (u :: ts) fun x hx => h x (by simp [hx]),
      map_token t fun c hc => ((h t (by simp)).2 c hc).1]
    rfl

/-- **C177.** The parameters of the fit are logged in brackets, separated by commas, without blanks, however NumPy pads and wraps them. -/
theorem C177_parameters (w0 : Str) (init : List (Str × Str)) (last wn : Str) (h0 : Blank w0) (hl : FitToken last) (hn : Blank wn)
    (hi : ∀ p ∈ init, FitToken p.1 ∧ p.2 ≠ [] ∧ Blank p.2) :
    fitParamText (arrayText w0 init last wn) = '[' :: (joinChar ',' (init.map (·.1) ++ [last]) ++ [']']) := by
  have hts : ∀ t ∈ init.map (·.1) ++ [last], FitToken t := by
    intro t ht
    rcases List.mem_append.1 ht with h | h
    · obtain ⟨p, hp, rfl⟩ := List.mem_map.1 h
      exact (hi p hp).1
    · simp only [List.mem_singleton] at h; subst h; exact hl
  unfold fitParamText
  rw [collapse_array w0 init last wn h0 hl hn hi]
  generalize hT : init.map (·.1) ++ [last] = ts at hts ⊢
  have hne : ts ≠ [] := by rw [← hT]; simp
  generalize ha : (if w0 = [] then ([] : Str) else [' ']) = a
  generalize hb : (if wn = [] then ([] : Str) else [' ']) = b
  have ha' : a = [] ∨ a = [' '] := by rw [← ha]; split <;> simp
  have hb' : b = [] ∨ b = [' '] := by rw [← hb]; split <;> simp
  rw [List.append_assoc, List.append_assoc, replaceTwo_open a ha' _ (by
      intro c hc
      rcases List.mem_append.1 hc with h | h
      · rcases joinChar_mem _ _ _ h with rfl | ⟨t, ht, hc⟩
        · decide
        · exact ((hts t ht).2 c hc).2.1
      · rcases List.mem_append.1 h with h | h
        · rcases hb' with rfl | rfl
          · simp at h
          · simp only [List.mem_singleton] at h; subst h; decide
        · simp only [List.mem_singleton] at h; subst h; decide) (by
      obtain ⟨u, us, rfl⟩ := List.exists_cons_of_ne_nil hne
      obtain ⟨c, u', rfl⟩ := List.exists_cons_of_ne_nil (hts u (by simp)).1
      have hc := ne_space_of_not_ws ((hts (c :: u') (by simp)).2 c (by simp)).1
      cases us with
      | nil => exact ⟨c, _, rfl, hc⟩
      | cons v vs => exact ⟨c, _, rfl, hc⟩),
    replaceTwo_skip _ _ _ '[' (by decide), replaceTwo_close b hb' ts hne hts, List.map_cons, List.map_append, map_join ts hts]
  rfl

example : fitParamText "[ 1.5  2.\n  1e-08 ]".toList = "[1.5,2.,1e-08]".toList := by decide

theorem splitWs_joinChar : ∀ ts : List Str, (∀ t ∈ ts, t ≠ [] ∧ ∀ c ∈ t, isWs c = false) → splitWs (joinChar ' ' ts) = ts
  | [], _ => rfl
  | [t], h => by
    have ht := h t (by simp)
    simp only [joinChar]
    unfold splitWs
    rw [← List.append_nil t, splitWsAux_token t [] ht.2]
    simp [splitWsAux, ht.1]
  | t :: u :: ts, h => by
    have ht := h t (by simp)
    have ih := splitWs_joinChar (u :: ts) fun x hx => h x (by simp [hx])
    rw [joinChar_cons_ne _ (by simp)]
    unfold splitWs at ih ⊢
    rw [splitWsAux_token t _ ht.2, splitWsAux, if_pos (by decide), if_neg (by simp [ht.1]), ih]
    simp

/-- **C177.** The values of an entry can be read back field by field, if the path of the photo has no white space. -/
theorem C177_entry (w : WarnEntry) (h : ∀ t ∈ w.fields, t ≠ [] ∧ ∀ c ∈ t, isWs c = false) :
    splitWs w.text = ["Irregularities".toList, "while".toList, "fitting:".toList] ++ w.fields := by
  have h2 := splitWs_joinChar w.fields h
  unfold WarnEntry.text
  unfold splitWs at h2 ⊢
  have e : "Irregularities while fitting:\n    ".toList = spaced [("Irregularities".toList, [' ']), ("while".toList, [' ']),
    ("fitting:".toList, "\n    ".toList)] := by decide
  rw [splitWsAux_trail ['\n'] (by decide), e]
  simp only [spaced, List.append_assoc, List.append_nil]
  have step : ∀ (t w rest : Str), (t ≠ [] ∧ (∀ c ∈ t, isWs c = false) ∧ w ≠ [] ∧ ∀ c ∈ w, isWs c = true) →
      splitWsAux [] (t ++ (w ++ rest)) = t :: splitWsAux [] rest := by
    intro t w rest ⟨h1, h2, h3, h4⟩
    cases w with
    | nil => exact absurd rfl h3
    | cons x w =>
      rw [splitWsAux_token t _ h2, List.cons_append, splitWsAux, if_pos (h4 x (by simp)), if_neg (by simpa using h1),
        splitWsAux_space _ _ (fun c hc => h4 c (by simp [hc]))]
      simp
  rw [step _ _ _ (by decide), step _ _ _ (by decide), step _ _ _ (by decide), h2]
  rfl

/-- A folder with a blank in its name shifts the values. -/
theorem C177_entry_false : ∃ w : WarnEntry, splitWs w.text ≠ ["Irregularities".toList, "while".toList, "fitting:".toList] ++ w.fields :=
  ⟨⟨"my photos/a.jpg".toList, ['3'], ['0'], "[1.]".toList, "False".toList, ['2'], ['9'], ['4'], ['4'], ['1'], ['1'], ['2'], ['1'], ['1'], ['0']⟩,
    by decide⟩

/-- **C177, values.** No value is left out of an entry: entries with the same values are the same. -/
theorem C177_values : Function.Injective WarnEntry.fields := by
  intro a b h
  cases a
  cases b
  simpa [WarnEntry.fields] using h

end Ledsa
