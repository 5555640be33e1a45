import Verif.Model.Concurrent
import Mathlib.Logic.Function.Iterate
import Mathlib.Data.List.Nodup
/-
C161: several runs of step 3 at the same time in one working directory.
-/
namespace Ledsa

/-! ### Specification -/

/-- An image table as it is written: numbered from 1, every photo once. -/
structure NumberedTable (T : List InfoRow) : Prop where
  numbered : ∀ (i : Nat) (h : i < T.length), (T[i]).idx = i + 1
  photos : (T.map (·.name)).Nodup

/-- The text a run of its own writes into the result file of a channel and an image. -/
def RightText (env : SharedEnv) (c i : Nat) (text : Str) : Prop :=
  ∃ r ∈ env.infos, r.idx = i ∧ ∃ t, env.lines c r.name = some t ∧ text = env.header c i r.name r.expTime ++ t

/-- All result files of these channels for an image are complete and right. -/
def ImageDone (env : SharedEnv) (s : SharedFiles) (cs : List Nat) (r : InfoRow) : Prop :=
  ∀ c ∈ cs, ∃ t, env.lines c r.name = some t ∧ s.result c r.idx = some (env.header c r.idx r.name r.expTime ++ t)

/-- All result files of these channels are complete and right. -/
def AllDone (env : SharedEnv) (s : SharedFiles) (cs : List Nat) : Prop := ∀ r ∈ env.infos, ImageDone env s cs r

/-- No result file of these channels has been touched. -/
def Untouched (s0 s : SharedFiles) (cs : List Nat) : Prop := ∀ c ∈ cs, ∀ i, s.result c i = s0.result c i

/-! ### Looking up in the table -/

theorem NumberedTable.idx_inj {T : List InfoRow} (h : NumberedTable T) {r q : InfoRow} (hr : r ∈ T) (hq : q ∈ T)
    (e : r.idx = q.idx) : r = q := by
  obtain ⟨i, hi, rfl⟩ := List.getElem_of_mem hr
  obtain ⟨j, hj, rfl⟩ := List.getElem_of_mem hq
  rw [h.numbered i hi, h.numbered j hj] at e
  have : i = j := by omega
  subst this; rfl

theorem NumberedTable.at_idx {T : List InfoRow} (h : NumberedTable T) {r : InfoRow} (hr : r ∈ T) : T[r.idx - 1]? = some r := by
  obtain ⟨i, hi, rfl⟩ := List.getElem_of_mem hr
  rw [h.numbered i hi]; simp [hi]

theorem NumberedTable.find_idx {T : List InfoRow} (h : NumberedTable T) {r : InfoRow} (hr : r ∈ T) :
    T.find? (fun q => q.idx = r.idx) = some r := by
  cases hf : T.find? (fun q => q.idx = r.idx) with
  | none => simp only [List.find?_eq_none] at hf; exact absurd (by simp) (hf r hr)
  | some q =>
    have h1 := List.mem_of_find?_eq_some hf
    have h2 : q.idx = r.idx := by simpa using List.find?_some hf
    rw [h.idx_inj h1 hr h2]

theorem NumberedTable.find_name {T : List InfoRow} (h : NumberedTable T) {r : InfoRow} (hr : r ∈ T) :
    T.find? (fun q => q.name = r.name) = some r := by
  cases hf : T.find? (fun q => q.name = r.name) with
  | none => simp only [List.find?_eq_none] at hf; exact absurd (by simp) (hf r hr)
  | some q =>
    have h1 := List.mem_of_find?_eq_some hf
    have h2 : q.name = r.name := by simpa using List.find?_some hf
    rw [List.inj_on_of_nodup_map h.photos h1 hr h2]

/-! ### Whatever the interleaving: contents are right -/

/-- The image table is empty (being written) or complete. -/
def InfosOk (T : List InfoRow) (s : SharedFiles) : Prop := s.infos = some [] ∨ s.infos = some T

/-- The list of photos is missing, empty (being written) or complete. -/
def ListOk (T : List InfoRow) (s : SharedFiles) : Prop := ∀ f l, s.list = some (f, l) → l = [] ∨ l = T.map (·.name)

/-- The photo of a task is that of its image id. -/
def TaskOk (T : List InfoRow) (k : PhotoTask) : Prop :=
  (∃ r ∈ T, r.name = k.photo ∧ r.idx = k.id) ∧ ∀ p ∈ k.todo, p ∈ T.map (·.name)

/-- What a run knows is right. -/
def RunOk (env : SharedEnv) (s : SharedFiles) : ExtractRun → Prop
  | .openInfos => True
  | .writeInfos => True
  | .readInfos => InfosOk env.infos s
  | .openList names => InfosOk env.infos s ∧ names = env.infos.map (·.name)
  | .writeList names _ => InfosOk env.infos s ∧ ListOk env.infos s ∧ names = env.infos.map (·.name)
  | .readList => InfosOk env.infos s ∧ ListOk env.infos s
  | .photos todo => InfosOk env.infos s ∧ ∀ p ∈ todo, p ∈ env.infos.map (·.name)
  | .measure k => InfosOk env.infos s ∧ TaskOk env.infos k
  | .readTable k t => InfosOk env.infos s ∧ TaskOk env.infos k ∧ env.lines k.chan k.photo = some t
  | .readName k t rows => InfosOk env.infos s ∧ TaskOk env.infos k ∧ env.lines k.chan k.photo = some t ∧
      (rows = [] ∨ rows = env.infos)
  | .openResult k t rows name => InfosOk env.infos s ∧ TaskOk env.infos k ∧ env.lines k.chan k.photo = some t ∧
      (rows = [] ∨ rows = env.infos) ∧ name = k.photo
  | .writeResult k t rows name => InfosOk env.infos s ∧ TaskOk env.infos k ∧ env.lines k.chan k.photo = some t ∧
      (rows = [] ∨ rows = env.infos) ∧ name = k.photo
  | .ended => True
  | .failed _ => True

theorem InfosOk.put {T : List InfoRow} {s : SharedFiles} {c i : Nat} {x : Str} (h : InfosOk T s) : InfosOk T (s.put c i x) := h

theorem nextChannel_ok {env : SharedEnv} {s : SharedFiles} (h : InfosOk env.infos s) {photo : Str} {id : Nat} {todo : List Str}
    (hk : ∃ r ∈ env.infos, r.name = photo ∧ r.idx = id) (ht : ∀ p ∈ todo, p ∈ env.infos.map (·.name)) (cs : List Nat) :
    RunOk env s (nextChannel photo id todo cs) := by
  cases cs with
  | nil => exact ⟨h, ht⟩
  | cons c cs => exact ⟨h, hk, ht⟩

/-- Every step keeps this for the run that does it. -/
theorem ExtractRun.step_ok {env : SharedEnv} (hT : NumberedTable env.infos) (cs : List Nat) (s : SharedFiles) (r : ExtractRun)
    (h : RunOk env s r) : RunOk env (r.step env cs s).1 (r.step env cs s).2 := by
  cases r with
  | openInfos => trivial
  | writeInfos => exact Or.inr rfl
  | readInfos =>
    rcases h with h | h
    · simp only [ExtractRun.step, h]; trivial
    · cases hi : env.infos with
      | nil => rw [hi] at h; simp only [ExtractRun.step, h]; trivial
      | cons r rows =>
        have h' := h
        rw [hi] at h
        simp only [ExtractRun.step, h]
        exact ⟨Or.inr h', by rw [hi]⟩
  | openList names =>
    simp only [ExtractRun.step]
    split
    · exact ⟨h.1, fun f l e => by simp at e; exact Or.inl e.2, h.2⟩
    · exact ⟨h.1, fun f l e => by simp at e; exact Or.inl e.2, h.2⟩
  | writeList names f =>
    obtain ⟨h1, h2, h3⟩ := h
    simp only [ExtractRun.step]
    split
    · rename_i g l hl
      by_cases hg : g = f
      · simp only [hg, if_true]
        exact ⟨h1, fun f' l' e => by simp at e; exact Or.inr (e.2.symm.trans h3)⟩
      · simp only [hg, if_false]
        exact ⟨h1, fun f' l' e => by
          simp only [Option.some.injEq, Prod.mk.injEq] at e
          exact h2 g l' (by rw [hl, e.2])⟩
    · exact ⟨h1, h2⟩
  | readList =>
    simp only [ExtractRun.step]
    split
    · trivial
    · rename_i f l hl
      refine ⟨h.1, fun p hp => ?_⟩
      rcases h.2 f l hl with e | e
      · rw [e] at hp; exact absurd hp (by simp)
      · rwa [e] at hp
  | photos todo =>
    cases todo with
    | nil =>
      simp only [ExtractRun.step]
      split <;> trivial
    | cons p todo =>
      simp only [ExtractRun.step]
      split
      · trivial
      · trivial
      · rename_i rows _ hs
        have hrows : rows = env.infos := by
          rcases h.1 with e | e
          · rw [e] at hs; simp_all
          · rw [e] at hs; simpa using hs.symm
        subst hrows
        obtain ⟨r, hr, hn⟩ := List.mem_map.mp (h.2 p (by simp))
        have hf := hT.find_name hr
        rw [hn] at hf
        rw [hf]
        exact nextChannel_ok h.1 ⟨r, hr, hn, rfl⟩ (fun q hq => h.2 q (by simp [hq])) cs
  | measure k =>
    simp only [ExtractRun.step]
    split
    · trivial
    · rename_i t ht
      exact ⟨h.1, h.2, ht⟩
  | readTable k t =>
    simp only [ExtractRun.step]
    split
    · trivial
    · rename_i rows hs
      refine ⟨h.1, h.2.1, h.2.2, ?_⟩
      rcases h.1 with e | e
      · rw [e] at hs; left; simpa using hs.symm
      · rw [e] at hs; right; simpa using hs.symm
  | readName k t rows =>
    obtain ⟨h1, h2, h3, h4⟩ := h
    simp only [ExtractRun.step]
    split
    · trivial
    · trivial
    · rename_i rows' _ hs
      have hrows : rows' = env.infos := by
        rcases h1 with e | e
        · rw [e] at hs; simp_all
        · rw [e] at hs; simpa using hs.symm
      subst hrows
      obtain ⟨r, hr, hn, hi⟩ := h2.1
      have hf := hT.find_idx hr
      rw [hi] at hf
      rw [hf]
      exact ⟨h1, h2, h3, h4, hn⟩
  | openResult k t rows name => exact h
  | writeResult k t rows name =>
    obtain ⟨h1, h2, h3, h4, h5⟩ := h
    simp only [ExtractRun.step]
    split
    · trivial
    · exact nextChannel_ok (InfosOk.put h1) h2.1 h2.2 k.chans
  | ended => trivial
  | failed e => trivial

/-- A step keeps the image table and the list in order. -/
theorem ExtractRun.step_tables {env : SharedEnv} (cs : List Nat) (s : SharedFiles) (r : ExtractRun) (h : RunOk env s r) :
    (InfosOk env.infos s → InfosOk env.infos (r.step env cs s).1) ∧ (ListOk env.infos s → ListOk env.infos (r.step env cs s).1) := by
  cases r with
  | openInfos => exact ⟨fun _ => Or.inl rfl, fun x => x⟩
  | writeInfos => exact ⟨fun _ => Or.inr rfl, fun x => x⟩
  | readInfos => simp only [ExtractRun.step]; split <;> exact ⟨fun x => x, fun x => x⟩
  | openList names =>
    simp only [ExtractRun.step]
    split
    · exact ⟨fun x => x, fun _ f l e => by simp at e; exact Or.inl e.2⟩
    · exact ⟨fun x => x, fun _ f l e => by simp at e; exact Or.inl e.2⟩
  | writeList names f =>
    refine ⟨?_, fun _ => ?_⟩
    · simp only [ExtractRun.step]
      split
      · split <;> exact fun x => x
      · exact fun x => x
    · obtain ⟨h1, h2, h3⟩ := h
      simp only [ExtractRun.step]
      split
      · rename_i g l hl
        by_cases hg : g = f
        · simp only [hg, if_true]
          exact fun f' l' e => by simp at e; exact Or.inr (e.2.symm.trans h3)
        · simp only [hg, if_false]
          exact fun f' l' e => by
            simp only [Option.some.injEq, Prod.mk.injEq] at e
            exact h2 g l' (by rw [hl, e.2])
      · exact h2
  | readList => simp only [ExtractRun.step]; split <;> exact ⟨fun x => x, fun x => x⟩
  | photos todo =>
    cases todo with
    | nil =>
      simp only [ExtractRun.step]
      split
      · exact ⟨fun x => x, fun x => x⟩
      · exact ⟨fun x => x, fun _ f l e => by simp at e⟩
    | cons p todo =>
      simp only [ExtractRun.step]
      split
      · exact ⟨fun x => x, fun x => x⟩
      · exact ⟨fun x => x, fun x => x⟩
      · split <;> exact ⟨fun x => x, fun x => x⟩
  | measure k => simp only [ExtractRun.step]; split <;> exact ⟨fun x => x, fun x => x⟩
  | readTable k t => simp only [ExtractRun.step]; split <;> exact ⟨fun x => x, fun x => x⟩
  | readName k t rows =>
    simp only [ExtractRun.step]
    split
    · exact ⟨fun x => x, fun x => x⟩
    · exact ⟨fun x => x, fun x => x⟩
    · split <;> exact ⟨fun x => x, fun x => x⟩
  | openResult k t rows name => exact ⟨fun x => x, fun x => x⟩
  | writeResult k t rows name => simp only [ExtractRun.step]; split <;> exact ⟨fun x => x, fun x => x⟩
  | ended => exact ⟨fun x => x, fun x => x⟩
  | failed e => exact ⟨fun x => x, fun x => x⟩

/-- What another run knows stays right. -/
theorem RunOk.mono {env : SharedEnv} {s s' : SharedFiles} (hi : InfosOk env.infos s → InfosOk env.infos s')
    (hl : ListOk env.infos s → ListOk env.infos s') {q : ExtractRun} (h : RunOk env s q) : RunOk env s' q := by
  cases q with
  | openInfos => trivial
  | writeInfos => trivial
  | readInfos => exact hi h
  | openList names => exact ⟨hi h.1, h.2⟩
  | writeList names f => exact ⟨hi h.1, hl h.2.1, h.2.2⟩
  | readList => exact ⟨hi h.1, hl h.2⟩
  | photos todo => exact ⟨hi h.1, h.2⟩
  | measure k => exact ⟨hi h.1, h.2⟩
  | readTable k t => exact ⟨hi h.1, h.2⟩
  | readName k t rows => exact ⟨hi h.1, h.2⟩
  | openResult k t rows name => exact ⟨hi h.1, h.2⟩
  | writeResult k t rows name => exact ⟨hi h.1, h.2⟩
  | ended => trivial
  | failed e => trivial

/-- What a step does to the result files. -/
theorem ExtractRun.step_result {env : SharedEnv} (hT : NumberedTable env.infos) (cs : List Nat) (s : SharedFiles) (r : ExtractRun)
    (h : RunOk env s r) (c i : Nat) :
    (r.step env cs s).1.result c i = s.result c i ∨ (r.step env cs s).1.result c i = some [] ∨
      ∃ x, (r.step env cs s).1.result c i = some x ∧ RightText env c i x := by
  cases r with
  | openInfos => exact Or.inl rfl
  | writeInfos => exact Or.inl rfl
  | readInfos => simp only [ExtractRun.step]; split <;> exact Or.inl rfl
  | openList names => simp only [ExtractRun.step]; split <;> exact Or.inl rfl
  | writeList names f =>
    simp only [ExtractRun.step]
    split
    · split <;> exact Or.inl rfl
    · exact Or.inl rfl
  | readList => simp only [ExtractRun.step]; split <;> exact Or.inl rfl
  | photos todo =>
    cases todo with
    | nil => simp only [ExtractRun.step]; split <;> exact Or.inl rfl
    | cons p todo =>
      simp only [ExtractRun.step]
      split
      · exact Or.inl rfl
      · exact Or.inl rfl
      · split <;> exact Or.inl rfl
  | measure k => simp only [ExtractRun.step]; split <;> exact Or.inl rfl
  | readTable k t => simp only [ExtractRun.step]; split <;> exact Or.inl rfl
  | readName k t rows =>
    simp only [ExtractRun.step]
    split
    · exact Or.inl rfl
    · exact Or.inl rfl
    · split <;> exact Or.inl rfl
  | openResult k t rows name =>
    by_cases hc : c = k.chan ∧ i = k.id
    · right; left; simp [ExtractRun.step, SharedFiles.put, hc]
    · left; simp [ExtractRun.step, SharedFiles.put, hc]
  | writeResult k t rows name =>
    obtain ⟨h1, h2, h3, h4, h5⟩ := h
    simp only [ExtractRun.step]
    split
    · exact Or.inl rfl
    · rename_i q hq
      by_cases hc : c = k.chan ∧ i = k.id
      · right; right
        obtain ⟨r, hr, hn, hi⟩ := h2.1
        have hrows : rows = env.infos := by
          rcases h4 with e | e
          · rw [e] at hq; simp at hq
          · exact e
        have := hT.at_idx hr
        rw [hi, ← hrows, hq] at this
        obtain rfl : q = r := by simpa using this
        refine ⟨env.header k.chan k.id name q.expTime ++ t, by simp [SharedFiles.put, hc], q, hr, hi.trans hc.2.symm, t, ?_, ?_⟩
        · rw [hc.1, hn]; exact h3
        · rw [hc.1, hc.2, h5, hn]
      · left; simp [SharedFiles.put, hc]
  | ended => exact Or.inl rfl
  | failed e => exact Or.inl rfl

/-- All runs know what is right. -/
def Extracting.Ok (env : SharedEnv) (st : Extracting) : Prop := ∀ (i : Nat) (p : List Nat × ExtractRun), st.runs[i]? = some p → RunOk env st.files p.2

theorem Extracting.step_ok {env : SharedEnv} (hT : NumberedTable env.infos) {st : Extracting} (h : st.Ok env) (i : Nat) :
    (st.step env i).Ok env := by
  unfold Extracting.step
  cases hi : st.runs[i]? with
  | none => simpa only using h
  | some p =>
    obtain ⟨cs, r⟩ := p
    have hr : RunOk env st.files r := h i _ hi
    intro j q hj
    simp only at hj ⊢
    rw [List.getElem?_set] at hj
    by_cases e : i = j
    · subst e
      have hlt : i < st.runs.length := by
        rcases Nat.lt_or_ge i st.runs.length with hlt | hge
        · exact hlt
        · rw [List.getElem?_eq_none hge] at hi; exact absurd hi (by simp)
      simp only [if_true, hlt] at hj
      obtain rfl := Option.some.inj hj
      exact r.step_ok hT cs st.files hr
    · simp only [e, if_false] at hj
      obtain ⟨h1, h2⟩ := r.step_tables cs st.files hr
      exact (h j q hj).mono h1 h2

/-- **C161, contents**: whatever the interleaving, at any moment every result file has its old content, is empty (opened
just now or left by a run that failed), or has the content a run of its own writes. Channels may be shared. -/
theorem C161_contents (env : SharedEnv) (hT : NumberedTable env.infos) (s : SharedFiles) (channels : List (List Nat))
    (schedule : List Nat) (c i : Nat) :
    let now := ((Extracting.start s channels).exec env schedule).files.result c i
    now = s.result c i ∨ now = some [] ∨ ∃ x, now = some x ∧ RightText env c i x := by
  have key : ∀ (schedule : List Nat) (st : Extracting), st.Ok env →
      (st.files.result c i = s.result c i ∨ st.files.result c i = some [] ∨ ∃ x, st.files.result c i = some x ∧ RightText env c i x) →
      ((st.exec env schedule).files.result c i = s.result c i ∨ (st.exec env schedule).files.result c i = some [] ∨
        ∃ x, (st.exec env schedule).files.result c i = some x ∧ RightText env c i x) := by
    intro schedule
    induction schedule with
    | nil => intro st _ h; exact h
    | cons n rest ih =>
      intro st hok h
      refine ih (st.step env n) (Extracting.step_ok hT hok n) ?_
      unfold Extracting.step
      cases hn : st.runs[n]? with
      | none => exact h
      | some p =>
        obtain ⟨cs, r⟩ := p
        rcases r.step_result hT cs st.files (hok n _ hn) c i with e | e | e
        · simp only; rw [e]; exact h
        · exact Or.inr (Or.inl e)
        · exact Or.inr (Or.inr e)
  refine key schedule (Extracting.start s channels) ?_ (Or.inl rfl)
  intro j q hj
  simp only [Extracting.start, List.getElem?_map, Option.map_eq_some_iff] at hj
  obtain ⟨cs, _, rfl⟩ := hj
  trivial

/-! ### Tables written without interruption: all or nothing -/

/-- One turn of a run: a step, and the writing of a table it has opened. -/
def ExtractRun.turn (env : SharedEnv) (cs : List Nat) (s : SharedFiles) (r : ExtractRun) : SharedFiles × ExtractRun :=
  if (r.step env cs s).2.writing then (r.step env cs s).2.step env cs (r.step env cs s).1 else r.step env cs s

theorem Extracting.turn_eq (env : SharedEnv) (st : Extracting) (i : Nat) :
    st.turn env i = match st.runs[i]? with
      | none => st
      | some (cs, r) => ⟨(r.turn env cs st.files).1, st.runs.set i (cs, (r.turn env cs st.files).2)⟩ := by
  unfold Extracting.turn
  cases hi : st.runs[i]? with
  | none => simp [Extracting.step, hi]
  | some p =>
    obtain ⟨cs, r⟩ := p
    have hlt : i < st.runs.length := by
      rcases Nat.lt_or_ge i st.runs.length with hlt | hge
      · exact hlt
      · rw [List.getElem?_eq_none hge] at hi; exact absurd hi (by simp)
    have e1 : st.step env i = ⟨(r.step env cs st.files).1, st.runs.set i (cs, (r.step env cs st.files).2)⟩ := by
      simp [Extracting.step, hi]
    have e2 : (st.step env i).runs[i]? = some (cs, (r.step env cs st.files).2) := by
      rw [e1]; simp [hlt]
    rw [e2]
    simp only [ExtractRun.turn]
    split
    · have : (st.step env i).step env i = ⟨((r.step env cs st.files).2.step env cs (r.step env cs st.files).1).1,
          st.runs.set i (cs, ((r.step env cs st.files).2.step env cs (r.step env cs st.files).1).2)⟩ := by
        rw [Extracting.step, e2]
        simp only [e1, List.set_set]
      rw [this]
    · exact e1

/-- The image table is complete. -/
def InfosFull (T : List InfoRow) (s : SharedFiles) : Prop := s.infos = some T

/-- The list of photos is missing or complete. -/
def ListFull (T : List InfoRow) (s : SharedFiles) : Prop := ∀ f l, s.list = some (f, l) → l = T.map (·.name)

/-- A task of a run with the channels `cs`: the photos before it and the channels before it are done. -/
def TaskAt (env : SharedEnv) (s : SharedFiles) (cs : List Nat) (k : PhotoTask) : Prop :=
  ∃ (before : List InfoRow) (r : InfoRow) (after : List InfoRow) (dcs : List Nat), env.infos = before ++ r :: after ∧
    k.photo = r.name ∧ k.id = r.idx ∧ k.todo = after.map (·.name) ∧ cs = dcs ++ k.chan :: k.chans ∧
    (∀ q ∈ before, ImageDone env s cs q) ∧ ImageDone env s dcs r

/-- How far a run has come between turns. -/
def Progress (env : SharedEnv) (s0 s : SharedFiles) (cs : List Nat) : ExtractRun → Prop
  | .openInfos => Untouched s0 s cs
  | .writeInfos => False
  | .readInfos => Untouched s0 s cs ∧ InfosFull env.infos s
  | .openList names => Untouched s0 s cs ∧ InfosFull env.infos s ∧ names = env.infos.map (·.name)
  | .writeList _ _ => False
  | .readList => Untouched s0 s cs ∧ InfosFull env.infos s ∧ ListFull env.infos s
  | .photos todo => InfosFull env.infos s ∧ ∃ before after, env.infos = before ++ after ∧ todo = after.map (·.name) ∧
      ∀ q ∈ before, ImageDone env s cs q
  | .measure k => InfosFull env.infos s ∧ TaskAt env s cs k
  | .readTable k t => InfosFull env.infos s ∧ TaskAt env s cs k ∧ env.lines k.chan k.photo = some t
  | .readName k t rows => InfosFull env.infos s ∧ TaskAt env s cs k ∧ env.lines k.chan k.photo = some t ∧ rows = env.infos
  | .openResult k t rows name => InfosFull env.infos s ∧ TaskAt env s cs k ∧ env.lines k.chan k.photo = some t ∧
      rows = env.infos ∧ name = k.photo
  | .writeResult k t rows name => InfosFull env.infos s ∧ TaskAt env s cs k ∧ env.lines k.chan k.photo = some t ∧
      rows = env.infos ∧ name = k.photo
  | .ended => AllDone env s cs
  | .failed e => e = .fileNotFound ∧ (Untouched s0 s cs ∨ AllDone env s cs)

/-- What a turn does to the shared files from the point of view of the other runs. -/
theorem ExtractRun.turn_tables {env : SharedEnv} {s0 : SharedFiles} (cs : List Nat) (s : SharedFiles) (r : ExtractRun)
    (h : Progress env s0 s cs r) :
    (InfosFull env.infos s → InfosFull env.infos (r.turn env cs s).1) ∧ (ListFull env.infos s → ListFull env.infos (r.turn env cs s).1) ∧
      ∀ c i, c ∉ cs → (r.turn env cs s).1.result c i = s.result c i := by
  have same : (r.step env cs s).1 = s → (r.step env cs s).2.writing = false →
      (InfosFull env.infos s → InfosFull env.infos (r.turn env cs s).1) ∧ (ListFull env.infos s → ListFull env.infos (r.turn env cs s).1) ∧
      ∀ c i, c ∉ cs → (r.turn env cs s).1.result c i = s.result c i := by
    intro e hq
    have : (r.turn env cs s).1 = s := by simp [ExtractRun.turn, e, hq]
    rw [this]; exact ⟨fun x => x, fun x => x, fun _ _ _ => rfl⟩
  have hnext : ∀ photo id todo l, (nextChannel photo id todo l).writing = false := by
    intro photo id todo l; cases l <;> rfl
  cases r with
  | openInfos => exact ⟨fun _ => rfl, fun x => x, fun _ _ _ => rfl⟩
  | writeInfos => exact h.elim
  | readInfos =>
    cases hs : s.infos with
    | none => exact same (by simp only [ExtractRun.step, hs]) (by simp only [ExtractRun.step, hs]; first | rfl | exact hnext _ _ _ _)
    | some rows => cases rows with
      | nil => exact same (by simp only [ExtractRun.step, hs]) (by simp only [ExtractRun.step, hs]; first | rfl | exact hnext _ _ _ _)
      | cons a l => exact same (by simp only [ExtractRun.step, hs]) (by simp only [ExtractRun.step, hs]; first | rfl | exact hnext _ _ _ _)
  | openList names =>
    cases hs : s.list with
    | none =>
      have : (ExtractRun.turn env cs s (.openList names)).1 = { s with list := some (s.next, names), next := s.next + 1 } := by
        simp [ExtractRun.turn, ExtractRun.step, hs, ExtractRun.writing]
      rw [this]
      exact ⟨fun x => x, fun _ f l e => by simp at e; rw [← e.2]; exact h.2.2, fun _ _ _ => rfl⟩
    | some p =>
      obtain ⟨f, l⟩ := p
      have : (ExtractRun.turn env cs s (.openList names)).1 = { s with list := some (f, names) } := by
        simp [ExtractRun.turn, ExtractRun.step, hs, ExtractRun.writing]
      rw [this]
      exact ⟨fun x => x, fun _ f l e => by simp at e; rw [← e.2]; exact h.2.2, fun _ _ _ => rfl⟩
  | writeList names f => exact h.elim
  | readList =>
    cases hs : s.list with
    | none => exact same (by simp only [ExtractRun.step, hs]) (by simp only [ExtractRun.step, hs]; first | rfl | exact hnext _ _ _ _)
    | some p => exact same (by simp only [ExtractRun.step, hs]) (by simp only [ExtractRun.step, hs]; first | rfl | exact hnext _ _ _ _)
  | photos todo =>
    cases todo with
    | nil =>
      cases hs : s.list with
      | none => exact same (by simp only [ExtractRun.step, hs]) (by simp only [ExtractRun.step, hs]; first | rfl | exact hnext _ _ _ _)
      | some p =>
        have : (ExtractRun.turn env cs s (.photos [])).1 = { s with list := none } := by
          simp [ExtractRun.turn, ExtractRun.step, hs, ExtractRun.writing]
        rw [this]
        exact ⟨fun x => x, fun _ f l e => by simp at e, fun _ _ _ => rfl⟩
    | cons p todo =>
      cases hs : s.infos with
      | none => exact same (by simp only [ExtractRun.step, hs]) (by simp only [ExtractRun.step, hs]; first | rfl | exact hnext _ _ _ _)
      | some rows => cases rows with
        | nil => exact same (by simp only [ExtractRun.step, hs]) (by simp only [ExtractRun.step, hs]; first | rfl | exact hnext _ _ _ _)
        | cons a l =>
          cases hf : (a :: l).find? (fun r => r.name = p) with
          | none => exact same (by simp only [ExtractRun.step, hs, hf]) (by simp only [ExtractRun.step, hs, hf]; first | rfl | exact hnext _ _ _ _)
          | some r => exact same (by simp only [ExtractRun.step, hs, hf]) (by simp only [ExtractRun.step, hs, hf]; first | rfl | exact hnext _ _ _ _)
  | measure k =>
    cases hs : env.lines k.chan k.photo with
    | none => exact same (by simp only [ExtractRun.step, hs]) (by simp only [ExtractRun.step, hs]; first | rfl | exact hnext _ _ _ _)
    | some t => exact same (by simp only [ExtractRun.step, hs]) (by simp only [ExtractRun.step, hs]; first | rfl | exact hnext _ _ _ _)
  | readTable k t =>
    cases hs : s.infos with
    | none => exact same (by simp only [ExtractRun.step, hs]) (by simp only [ExtractRun.step, hs]; first | rfl | exact hnext _ _ _ _)
    | some rows => exact same (by simp only [ExtractRun.step, hs]) (by simp only [ExtractRun.step, hs]; first | rfl | exact hnext _ _ _ _)
  | readName k t rows =>
    cases hs : s.infos with
    | none => exact same (by simp only [ExtractRun.step, hs]) (by simp only [ExtractRun.step, hs]; first | rfl | exact hnext _ _ _ _)
    | some rows => cases rows with
      | nil => exact same (by simp only [ExtractRun.step, hs]) (by simp only [ExtractRun.step, hs]; first | rfl | exact hnext _ _ _ _)
      | cons a l =>
        cases hf : (a :: l).find? (fun r => r.idx = k.id) with
        | none => exact same (by simp only [ExtractRun.step, hs, hf]) (by simp only [ExtractRun.step, hs, hf]; first | rfl | exact hnext _ _ _ _)
        | some r => exact same (by simp only [ExtractRun.step, hs, hf]) (by simp only [ExtractRun.step, hs, hf]; first | rfl | exact hnext _ _ _ _)
  | openResult k t rows name =>
    obtain ⟨-, ⟨-, -, -, dcs, -, -, -, -, hc, -⟩, -⟩ := h
    have : (ExtractRun.turn env cs s (.openResult k t rows name)).1 = s.put k.chan k.id [] := by
      simp [ExtractRun.turn, ExtractRun.step, ExtractRun.writing]
    rw [this]
    refine ⟨fun x => x, fun x => x, fun c i hci => ?_⟩
    have : c ≠ k.chan := fun e => hci (by rw [hc, e]; simp)
    simp [SharedFiles.put, this]
  | writeResult k t rows name =>
    obtain ⟨-, ⟨-, -, -, dcs, -, -, -, -, hc, -⟩, -⟩ := h
    cases hq : rows[k.id - 1]? with
    | none => exact same (by simp only [ExtractRun.step, hq]) (by simp only [ExtractRun.step, hq]; first | rfl | exact hnext _ _ _ _)
    | some r =>
      have : (ExtractRun.turn env cs s (.writeResult k t rows name)).1 =
          s.put k.chan k.id (env.header k.chan k.id name r.expTime ++ t) := by
        simp [ExtractRun.turn, ExtractRun.step, hq, hnext]
      rw [this]
      refine ⟨fun x => x, fun x => x, fun c i hci => ?_⟩
      have : c ≠ k.chan := fun e => hci (by rw [hc, e]; simp)
      simp [SharedFiles.put, this]
  | ended => exact same rfl rfl
  | failed e => exact same rfl rfl

/-- The results of channels that are not written stay. -/
theorem ImageDone.mono {env : SharedEnv} {s s' : SharedFiles} {cs : List Nat} {r : InfoRow} (h : ImageDone env s cs r)
    (e : ∀ c ∈ cs, s'.result c r.idx = s.result c r.idx) : ImageDone env s' cs r := by
  intro c hc
  obtain ⟨t, h1, h2⟩ := h c hc
  exact ⟨t, h1, by rw [e c hc, h2]⟩

theorem TaskAt.mono {env : SharedEnv} {s s' : SharedFiles} {cs : List Nat} {k : PhotoTask} (h : TaskAt env s cs k)
    (e : ∀ c ∈ cs, ∀ i, s'.result c i = s.result c i) : TaskAt env s' cs k := by
  obtain ⟨before, r, after, dcs, h1, h2, h3, h4, h5, h6, h7⟩ := h
  exact ⟨before, r, after, dcs, h1, h2, h3, h4, h5, fun q hq => (h6 q hq).mono fun c hc => e c hc _,
    h7.mono fun c hc => e c (by rw [h5]; simp [hc]) _⟩

/-- Progress is not lost by what the other runs do. -/
theorem Progress.mono {env : SharedEnv} {s0 s s' : SharedFiles} {cs : List Nat} (hi : InfosFull env.infos s → InfosFull env.infos s')
    (hl : ListFull env.infos s → ListFull env.infos s') (e : ∀ c ∈ cs, ∀ i, s'.result c i = s.result c i) {r : ExtractRun}
    (h : Progress env s0 s cs r) : Progress env s0 s' cs r := by
  have un : Untouched s0 s cs → Untouched s0 s' cs := fun h c hc i => by rw [e c hc i, h c hc i]
  have al : AllDone env s cs → AllDone env s' cs := fun h q hq => (h q hq).mono fun c hc => e c hc _
  cases r with
  | openInfos => exact un h
  | writeInfos => exact h
  | readInfos => exact ⟨un h.1, hi h.2⟩
  | openList names => exact ⟨un h.1, hi h.2.1, h.2.2⟩
  | writeList names f => exact h
  | readList => exact ⟨un h.1, hi h.2.1, hl h.2.2⟩
  | photos todo =>
    obtain ⟨h1, before, after, h2, h3, h4⟩ := h
    exact ⟨hi h1, before, after, h2, h3, fun q hq => (h4 q hq).mono fun c hc => e c hc _⟩
  | measure k => exact ⟨hi h.1, h.2.mono e⟩
  | readTable k t => exact ⟨hi h.1, h.2.1.mono e, h.2.2⟩
  | readName k t rows => exact ⟨hi h.1, h.2.1.mono e, h.2.2⟩
  | openResult k t rows name => exact ⟨hi h.1, h.2.1.mono e, h.2.2⟩
  | writeResult k t rows name => exact ⟨hi h.1, h.2.1.mono e, h.2.2⟩
  | ended => exact al h
  | failed x => exact ⟨h.1, h.2.imp un al⟩

/-- The next channel, or the next photo. -/
theorem nextChannel_progress {env : SharedEnv} {s0 s : SharedFiles} {cs dcs l : List Nat} (hi : InfosFull env.infos s)
    {before after : List InfoRow} {r : InfoRow} (hT : env.infos = before ++ r :: after) (hc : cs = dcs ++ l)
    (hb : ∀ q ∈ before, ImageDone env s cs q) (hd : ImageDone env s dcs r) :
    Progress env s0 s cs (nextChannel r.name r.idx (after.map (·.name)) l) := by
  cases l with
  | nil =>
    refine ⟨hi, before ++ [r], after, by simpa using hT, rfl, fun q hq => ?_⟩
    rcases List.mem_append.mp hq with h | h
    · exact hb q h
    · obtain rfl : q = r := by simpa using h
      rw [hc, List.append_nil]; exact hd
  | cons c l => exact ⟨hi, before, r, after, dcs, hT, rfl, rfl, rfl, hc, hb, hd⟩

/-- A turn makes progress. -/
theorem ExtractRun.turn_progress {env : SharedEnv} (hT : NumberedTable env.infos) (hne : env.infos ≠ []) {s0 s : SharedFiles}
    {cs : List Nat} (hcs : cs.Nodup) (hm : ∀ c ∈ cs, ∀ r ∈ env.infos, env.lines c r.name ≠ none) (r : ExtractRun)
    (h : Progress env s0 s cs r) : Progress env s0 (r.turn env cs s).1 cs (r.turn env cs s).2 := by
  have hnext : ∀ photo id todo l, (nextChannel photo id todo l).writing = false := by
    intro photo id todo l; cases l <;> rfl
  cases r with
  | openInfos => exact ⟨h, rfl⟩
  | writeInfos => exact h.elim
  | readInfos =>
    obtain ⟨h1, h2⟩ := h
    cases hi : env.infos with
    | nil => exact absurd hi hne
    | cons a l =>
      have h2' : s.infos = some (a :: l) := by rw [← hi]; exact h2
      have : ExtractRun.turn env cs s .readInfos = (s, .openList ((a :: l).map (·.name))) := by
        simp [ExtractRun.turn, ExtractRun.step, h2', ExtractRun.writing]
      rw [this]
      exact ⟨h1, h2, by rw [hi]⟩
  | openList names =>
    obtain ⟨h1, h2, h3⟩ := h
    cases hs : s.list with
    | none =>
      have : ExtractRun.turn env cs s (.openList names) = ({ s with list := some (s.next, names), next := s.next + 1 }, .readList) := by
        simp [ExtractRun.turn, ExtractRun.step, hs, ExtractRun.writing]
      rw [this]
      exact ⟨h1, h2, fun f l e => by simp at e; rw [← e.2]; exact h3⟩
    | some p =>
      obtain ⟨f, l⟩ := p
      have : ExtractRun.turn env cs s (.openList names) = ({ s with list := some (f, names) }, .readList) := by
        simp [ExtractRun.turn, ExtractRun.step, hs, ExtractRun.writing]
      rw [this]
      exact ⟨h1, h2, fun f l e => by simp at e; rw [← e.2]; exact h3⟩
  | writeList names f => exact h.elim
  | readList =>
    obtain ⟨h1, h2, h3⟩ := h
    cases hs : s.list with
    | none =>
      have : ExtractRun.turn env cs s .readList = (s, .failed .fileNotFound) := by
        simp [ExtractRun.turn, ExtractRun.step, hs, ExtractRun.writing]
      rw [this]
      exact ⟨rfl, Or.inl h1⟩
    | some p =>
      obtain ⟨f, l⟩ := p
      have : ExtractRun.turn env cs s .readList = (s, .photos l) := by
        simp [ExtractRun.turn, ExtractRun.step, hs, ExtractRun.writing]
      rw [this]
      exact ⟨h2, [], env.infos, rfl, h3 f l hs, by simp⟩
  | photos todo =>
    obtain ⟨h1, before, after, h2, h3, h4⟩ := h
    cases after with
    | nil =>
      simp only [List.map_nil] at h3
      subst h3
      rw [List.append_nil] at h2
      have hall : AllDone env s cs := fun q hq => h4 q (by rw [← h2]; exact hq)
      cases hs : s.list with
      | none =>
        have : ExtractRun.turn env cs s (.photos []) = (s, .failed .fileNotFound) := by
          simp [ExtractRun.turn, ExtractRun.step, hs, ExtractRun.writing]
        rw [this]
        exact ⟨rfl, Or.inr hall⟩
      | some p =>
        have : ExtractRun.turn env cs s (.photos []) = ({ s with list := none }, .ended) := by
          simp [ExtractRun.turn, ExtractRun.step, hs, ExtractRun.writing]
        rw [this]
        exact hall
    | cons r after =>
      simp only [List.map_cons] at h3
      subst h3
      have hr : r ∈ env.infos := by rw [h2]; simp
      have hstep : ExtractRun.step env cs s (.photos (r.name :: after.map (·.name))) =
          (s, nextChannel r.name r.idx (after.map (·.name)) cs) := by
        have h1' : s.infos = some env.infos := h1
        cases hi : env.infos with
        | nil => exact absurd hi hne
        | cons a l =>
          have hf := hT.find_name hr
          rw [hi] at hf h1'
          simp only [ExtractRun.step, h1', hf]
      have : ExtractRun.turn env cs s (.photos (r.name :: after.map (·.name))) =
          (s, nextChannel r.name r.idx (after.map (·.name)) cs) := by
        simp [ExtractRun.turn, hstep, hnext]
      rw [this]
      exact nextChannel_progress (dcs := []) h1 h2 (by simp) h4 (fun c hc => absurd hc (by simp))
  | measure k =>
    obtain ⟨h1, h2⟩ := h
    obtain ⟨before, r, after, dcs, e1, e2, e3, e4, e5, e6, e7⟩ := id h2
    have hl : env.lines k.chan k.photo ≠ none := by
      rw [e2]; exact hm k.chan (by rw [e5]; simp) r (by rw [e1]; simp)
    obtain ⟨t, ht⟩ := Option.ne_none_iff_exists'.mp hl
    have : ExtractRun.turn env cs s (.measure k) = (s, .readTable k t) := by
      simp [ExtractRun.turn, ExtractRun.step, ht, ExtractRun.writing]
    rw [this]
    exact ⟨h1, h2, ht⟩
  | readTable k t =>
    obtain ⟨h1, h2, h3⟩ := h
    have h1' : s.infos = some env.infos := h1
    have : ExtractRun.turn env cs s (.readTable k t) = (s, .readName k t env.infos) := by
      simp [ExtractRun.turn, ExtractRun.step, h1', ExtractRun.writing]
    rw [this]
    exact ⟨h1, h2, h3, rfl⟩
  | readName k t rows =>
    obtain ⟨h1, h2, h3, h4⟩ := h
    obtain ⟨before, r, after, dcs, e1, e2, e3, e4, e5, e6, e7⟩ := id h2
    have hr : r ∈ env.infos := by rw [e1]; simp
    have hstep : ExtractRun.step env cs s (.readName k t rows) = (s, .openResult k t rows r.name) := by
      have h1' : s.infos = some env.infos := h1
      cases hi : env.infos with
      | nil => exact absurd hi hne
      | cons a l =>
        have hf := hT.find_idx hr
        rw [hi] at hf h1'
        rw [← e3] at hf
        simp only [ExtractRun.step, h1', hf]
    have : ExtractRun.turn env cs s (.readName k t rows) = (s, .openResult k t rows r.name) := by
      simp [ExtractRun.turn, hstep, ExtractRun.writing]
    rw [this]
    exact ⟨h1, h2, h3, h4, e2.symm⟩
  | openResult k t rows name =>
    obtain ⟨h1, ⟨before, r, after, dcs, e1, e2, e3, e4, e5, e6, e7⟩, h3, h4, h5⟩ := h
    have : ExtractRun.turn env cs s (.openResult k t rows name) = (s.put k.chan k.id [], .writeResult k t rows name) := by
      simp [ExtractRun.turn, ExtractRun.step, ExtractRun.writing]
    rw [this]
    refine ⟨h1, ⟨before, r, after, dcs, e1, e2, e3, e4, e5, fun q hq => (e6 q hq).mono fun c _ => ?_, e7.mono fun c hc => ?_⟩, h3, h4, h5⟩
    · have : q.idx ≠ k.id := by
        intro e
        have hqr : q = r := hT.idx_inj (by rw [e1]; simp [hq]) (by rw [e1]; simp) (e.trans e3)
        have hn := hT.photos
        rw [e1, List.map_append, List.nodup_append] at hn
        exact hn.2.2 q.name (List.mem_map_of_mem hq) q.name (by rw [hqr]; simp) rfl
      simp [SharedFiles.put, this]
    · have : c ≠ k.chan := by
        rintro rfl
        rw [e5, List.nodup_append] at hcs
        exact hcs.2.2 _ hc _ (by simp) rfl
      simp [SharedFiles.put, this]
  | writeResult k t rows name =>
    obtain ⟨h1, ⟨before, r, after, dcs, e1, e2, e3, e4, e5, e6, e7⟩, h3, h4, h5⟩ := h
    have hr : r ∈ env.infos := by rw [e1]; simp
    have hq : rows[k.id - 1]? = some r := by rw [h4, e3]; exact hT.at_idx hr
    have : ExtractRun.turn env cs s (.writeResult k t rows name) =
        (s.put k.chan k.id (env.header k.chan k.id name r.expTime ++ t), nextChannel k.photo k.id k.todo k.chans) := by
      simp [ExtractRun.turn, ExtractRun.step, hq, hnext]
    rw [this, e2, e3, e4]
    refine nextChannel_progress (s := s.put k.chan r.idx (env.header k.chan r.idx name r.expTime ++ t)) (dcs := dcs ++ [k.chan]) h1 e1 (by simpa using e5) (fun q hq => (e6 q hq).mono fun c _ => ?_) ?_
    · have : q.idx ≠ r.idx := by
        intro e
        have hqr : q = r := hT.idx_inj (by rw [e1]; simp [hq]) (by rw [e1]; simp) e
        have hn := hT.photos
        rw [e1, List.map_append, List.nodup_append] at hn
        exact hn.2.2 q.name (List.mem_map_of_mem hq) q.name (by rw [hqr]; simp) rfl
      simp [SharedFiles.put, this]
    · intro c hc
      rcases List.mem_append.mp hc with hc | hc
      · obtain ⟨t', x1, x2⟩ := e7 c hc
        have : c ≠ k.chan := by
          rintro rfl
          rw [e5, List.nodup_append] at hcs
          exact hcs.2.2 _ hc _ (by simp) rfl
        exact ⟨t', x1, by simp [SharedFiles.put, this, x2]⟩
      · obtain rfl : c = k.chan := by simpa using hc
        exact ⟨t, by rw [← e2]; exact h3, by simp [SharedFiles.put, h5, e2]⟩
  | ended => exact h
  | failed e => exact h

/-- **C161, all or nothing**: when the tables are written without interruption and every run has channels of its own whose
photos can be measured, then whatever the interleaving a run that ended without error has all its result files complete and
right, and a run that ended with an error had its list of photos removed by another run and has either touched no result
file or has all of them complete and right. -/
theorem C161_turns_partial (env : SharedEnv) (hT : NumberedTable env.infos) (hne : env.infos ≠ []) (s : SharedFiles) (channels : List (List Nat))
    (hcs : ∀ cs ∈ channels, cs.Nodup) (hdis : channels.Pairwise List.Disjoint)
    (hm : ∀ cs ∈ channels, ∀ c ∈ cs, ∀ r ∈ env.infos, env.lines c r.name ≠ none) (schedule : List Nat) (i : Nat) (cs : List Nat)
    (hi : channels[i]? = some cs) :
    let st := (Extracting.start s channels).turns env schedule
    (st.runs[i]? = some (cs, .ended) → AllDone env st.files cs) ∧
      ∀ e, st.runs[i]? = some (cs, .failed e) → e = .fileNotFound ∧ (Untouched s st.files cs ∨ AllDone env st.files cs) := by
  have key : ∀ (schedule : List Nat) (st : Extracting), st.runs.map (·.1) = channels →
      (∀ (i : Nat) (p : List Nat × ExtractRun), st.runs[i]? = some p → Progress env s st.files p.1 p.2) →
      ∀ (i : Nat) (p : List Nat × ExtractRun), (st.turns env schedule).runs[i]? = some p →
        Progress env s (st.turns env schedule).files p.1 p.2 := by
    intro schedule
    induction schedule with
    | nil => intro st _ h; exact h
    | cons n rest ih =>
      intro st hch h
      have hchan : ∀ (j : Nat) (p : List Nat × ExtractRun), st.runs[j]? = some p → channels[j]? = some p.1 := by
        intro j p hj; rw [← hch, List.getElem?_map, hj]; rfl
      refine ih (st.turn env n) ?_ ?_
      · rw [Extracting.turn_eq]
        cases hn : st.runs[n]? with
        | none => exact hch
        | some p =>
          obtain ⟨cs', r⟩ := p
          simp only [List.map_set]
          rw [hch]
          exact by
            obtain ⟨b1, c1⟩ := List.getElem?_eq_some_iff.mp (hchan n _ hn)
            simp only at c1
            rw [← c1, List.set_getElem_self]
      · rw [Extracting.turn_eq]
        cases hn : st.runs[n]? with
        | none => exact h
        | some p =>
          obtain ⟨cs', r⟩ := p
          have hmem : cs' ∈ channels := List.mem_of_getElem? (hchan n _ hn)
          have hr := h n _ hn
          intro j q hj
          simp only at hj ⊢
          rw [List.getElem?_set] at hj
          by_cases e : n = j
          · subst e
            have hlt : n < st.runs.length := by
              rcases Nat.lt_or_ge n st.runs.length with hlt | hge
              · exact hlt
              · rw [List.getElem?_eq_none hge] at hn; exact absurd hn (by simp)
            simp only [if_true, hlt] at hj
            obtain rfl := Option.some.inj hj
            exact r.turn_progress hT hne (hcs cs' hmem) (hm cs' hmem) hr
          · simp only [e, if_false] at hj
            obtain ⟨h1, h2, h3⟩ := r.turn_tables cs' st.files hr
            refine (h j q hj).mono h1 h2 fun c hc k => h3 c k fun hc' => ?_
            have a1 := hchan n _ hn
            have a2 := hchan j _ hj
            simp only at a1 a2
            obtain ⟨b1, c1⟩ := List.getElem?_eq_some_iff.mp a1
            obtain ⟨b2, c2⟩ := List.getElem?_eq_some_iff.mp a2
            have hp := List.pairwise_iff_getElem.mp hdis
            rcases Nat.lt_or_gt_of_ne e with hlt | hgt
            · exact hp n j b1 b2 hlt (by rw [c1]; exact hc') (by rw [c2]; exact hc)
            · exact hp j n b2 b1 hgt (by rw [c2]; exact hc) (by rw [c1]; exact hc')
  have hall := key schedule (Extracting.start s channels) (by simp [Extracting.start, Function.comp_def]) (by
    intro j q hj
    simp only [Extracting.start, List.getElem?_map, Option.map_eq_some_iff] at hj
    obtain ⟨cs', _, rfl⟩ := hj
    exact fun c _ k => rfl)
  exact ⟨fun h => hall i _ h, fun e h => hall i _ h⟩

/-! ### One after the other -/

/-- A run of its own comes from one state to another. -/
def Reaches (env : SharedEnv) (cs : List Nat) (a b : SharedFiles × ExtractRun) : Prop :=
  ∃ n, (fun x : SharedFiles × ExtractRun => x.2.turn env cs x.1)^[n] a = b

theorem Reaches.trans {env : SharedEnv} {cs : List Nat} {a b c : SharedFiles × ExtractRun} (h : Reaches env cs a b)
    (g : Reaches env cs b c) : Reaches env cs a c := by
  obtain ⟨n, rfl⟩ := h
  obtain ⟨m, rfl⟩ := g
  exact ⟨m + n, Function.iterate_add_apply _ m n a⟩

theorem Reaches.one {env : SharedEnv} {cs : List Nat} {s s' : SharedFiles} {r r' : ExtractRun} (h : r.turn env cs s = (s', r')) :
    Reaches env cs (s, r) (s', r') := ⟨1, h⟩

theorem Reaches.refl {env : SharedEnv} {cs : List Nat} (a : SharedFiles × ExtractRun) : Reaches env cs a a := ⟨0, rfl⟩

theorem reaches_channels {env : SharedEnv} (hT : NumberedTable env.infos) {cs : List Nat} {r : InfoRow} (hr : r ∈ env.infos)
    (todo : List Str) (l : List Nat) : ∀ (s : SharedFiles), s.infos = some env.infos → (∀ c ∈ l, env.lines c r.name ≠ none) →
    ∃ s', Reaches env cs (s, nextChannel r.name r.idx todo l) (s', .photos todo) ∧ s'.infos = some env.infos ∧ s'.list = s.list := by
  induction l with
  | nil => intro s hs _; exact ⟨s, Reaches.refl _, hs, rfl⟩
  | cons c l ih =>
    intro s hs hm
    obtain ⟨t, ht⟩ := Option.ne_none_iff_exists'.mp (hm c (by simp))
    have hnext : ∀ photo id todo l, (nextChannel photo id todo l).writing = false := by
      intro photo id todo l; cases l <;> rfl
    have hq := hT.at_idx hr
    have hf := hT.find_idx hr
    obtain ⟨s', h1, h2, h3⟩ := ih (((s.put c r.idx []).put c r.idx (env.header c r.idx r.name r.expTime ++ t))) hs
      (fun c' hc' => hm c' (by simp [hc']))
    refine ⟨s', ?_, h2, h3⟩
    have a1 : ExtractRun.turn env cs s (.measure ⟨r.name, r.idx, c, l, todo⟩) = (s, .readTable ⟨r.name, r.idx, c, l, todo⟩ t) := by
      simp [ExtractRun.turn, ExtractRun.step, ht, ExtractRun.writing]
    have a2 : ExtractRun.turn env cs s (.readTable ⟨r.name, r.idx, c, l, todo⟩ t) =
        (s, .readName ⟨r.name, r.idx, c, l, todo⟩ t env.infos) := by
      simp [ExtractRun.turn, ExtractRun.step, hs, ExtractRun.writing]
    have a3 : ExtractRun.turn env cs s (.readName ⟨r.name, r.idx, c, l, todo⟩ t env.infos) =
        (s, .openResult ⟨r.name, r.idx, c, l, todo⟩ t env.infos r.name) := by
      have hstep : ExtractRun.step env cs s (.readName ⟨r.name, r.idx, c, l, todo⟩ t env.infos) =
          (s, .openResult ⟨r.name, r.idx, c, l, todo⟩ t env.infos r.name) := by
        cases hi : env.infos with
        | nil => rw [hi] at hr; exact absurd hr (by simp)
        | cons a b => rw [hi] at hf hs; simp only [ExtractRun.step, hs, hf]
      simp [ExtractRun.turn, hstep, ExtractRun.writing]
    have a4 : ExtractRun.turn env cs s (.openResult ⟨r.name, r.idx, c, l, todo⟩ t env.infos r.name) =
        (s.put c r.idx [], .writeResult ⟨r.name, r.idx, c, l, todo⟩ t env.infos r.name) := by
      simp [ExtractRun.turn, ExtractRun.step, ExtractRun.writing]
    have a5 : ExtractRun.turn env cs (s.put c r.idx []) (.writeResult ⟨r.name, r.idx, c, l, todo⟩ t env.infos r.name) =
        ((s.put c r.idx []).put c r.idx (env.header c r.idx r.name r.expTime ++ t), nextChannel r.name r.idx todo l) := by
      simp [ExtractRun.turn, ExtractRun.step, hq, hnext]
    exact (Reaches.one a1).trans ((Reaches.one a2).trans ((Reaches.one a3).trans ((Reaches.one a4).trans ((Reaches.one a5).trans h1))))

theorem reaches_photos {env : SharedEnv} (hT : NumberedTable env.infos) {cs : List Nat} (after : List InfoRow) :
    ∀ (s : SharedFiles), s.infos = some env.infos → s.list ≠ none → (∀ r ∈ after, r ∈ env.infos) →
    (∀ c ∈ cs, ∀ r ∈ after, env.lines c r.name ≠ none) → ∃ s', Reaches env cs (s, .photos (after.map (·.name))) (s', .ended) := by
  induction after with
  | nil =>
    intro s hs hl _ _
    obtain ⟨p, hp⟩ := Option.ne_none_iff_exists'.mp hl
    exact ⟨{ s with list := none }, Reaches.one (by simp [ExtractRun.turn, ExtractRun.step, hp, ExtractRun.writing])⟩
  | cons r after ih =>
    intro s hs hl hmem hm
    have hr := hmem r (by simp)
    have hnext : ∀ photo id todo l, (nextChannel photo id todo l).writing = false := by
      intro photo id todo l; cases l <;> rfl
    have hstep : ExtractRun.step env cs s (.photos (r.name :: after.map (·.name))) =
        (s, nextChannel r.name r.idx (after.map (·.name)) cs) := by
      have hf := hT.find_name hr
      cases hi : env.infos with
      | nil => rw [hi] at hr; exact absurd hr (by simp)
      | cons a l => rw [hi] at hf hs; simp only [ExtractRun.step, hs, hf]
    have h1 : ExtractRun.turn env cs s (.photos (r.name :: after.map (·.name))) =
        (s, nextChannel r.name r.idx (after.map (·.name)) cs) := by
      simp [ExtractRun.turn, hstep, hnext]
    obtain ⟨s1, h2, h3, h4⟩ := reaches_channels (cs := cs) hT hr (after.map (·.name)) cs s hs (fun c hc => hm c hc r (by simp))
    obtain ⟨s2, h5⟩ := ih s1 h3 (by rw [h4]; exact hl) (fun q hq => hmem q (by simp [hq])) (fun c hc q hq => hm c hc q (by simp [hq]))
    exact ⟨s2, (Reaches.one h1).trans (h2.trans h5)⟩

/-- A run of its own ends without error, whatever it finds. -/
theorem reaches_end {env : SharedEnv} (hT : NumberedTable env.infos) (hne : env.infos ≠ []) (cs : List Nat)
    (hm : ∀ c ∈ cs, ∀ r ∈ env.infos, env.lines c r.name ≠ none) (s : SharedFiles) :
    ∃ s', Reaches env cs (s, .openInfos) (s', .ended) := by
  have h1 : ExtractRun.turn env cs s .openInfos = ({ s with infos := some env.infos }, .readInfos) := rfl
  have h2 : ∀ s : SharedFiles, s.infos = some env.infos → ExtractRun.turn env cs s .readInfos = (s, .openList (env.infos.map (·.name))) := by
    intro s hs
    cases hi : env.infos with
    | nil => exact absurd hi hne
    | cons a l => rw [hi] at hs; simp [ExtractRun.turn, ExtractRun.step, hs, ExtractRun.writing]
  have h3 : ∀ s : SharedFiles, ∃ s' f, ExtractRun.turn env cs s (.openList (env.infos.map (·.name))) = (s', .readList) ∧
      s'.infos = s.infos ∧ s'.list = some (f, env.infos.map (·.name)) := by
    intro s
    cases hs : s.list with
    | none =>
      exact ⟨{ s with list := some (s.next, env.infos.map (·.name)), next := s.next + 1 }, s.next, by
        simp [ExtractRun.turn, ExtractRun.step, hs, ExtractRun.writing], rfl, rfl⟩
    | some p =>
      obtain ⟨f, l⟩ := p
      exact ⟨{ s with list := some (f, env.infos.map (·.name)) }, f, by
        simp [ExtractRun.turn, ExtractRun.step, hs, ExtractRun.writing], rfl, rfl⟩
  obtain ⟨s', f, e1, e2, e3⟩ := h3 { s with infos := some env.infos }
  have h4 : ExtractRun.turn env cs s' .readList = (s', .photos (env.infos.map (·.name))) := by
    simp [ExtractRun.turn, ExtractRun.step, e3, ExtractRun.writing]
  obtain ⟨s2, h5⟩ := reaches_photos (cs := cs) hT env.infos s' e2 (by rw [e3]; simp) (fun _ h => h) hm
  exact ⟨s2, (Reaches.one h1).trans ((Reaches.one (h2 _ rfl)).trans ((Reaches.one e1).trans ((Reaches.one h4).trans h5)))⟩

/-- Turns of one run only. -/
theorem Extracting.turns_replicate (env : SharedEnv) (i : Nat) (cs : List Nat) (n : Nat) : ∀ (st : Extracting) (r : ExtractRun),
    st.runs[i]? = some (cs, r) →
    st.turns env (List.replicate n i) =
      ⟨((fun x : SharedFiles × ExtractRun => x.2.turn env cs x.1)^[n] (st.files, r)).1,
        st.runs.set i (cs, ((fun x : SharedFiles × ExtractRun => x.2.turn env cs x.1)^[n] (st.files, r)).2)⟩ := by
  induction n with
  | zero =>
    intro st r h
    obtain ⟨b, c⟩ := List.getElem?_eq_some_iff.mp h
    simp only [List.replicate_zero, Extracting.turns, List.foldl_nil, Function.iterate_zero, id]
    rw [← c, List.set_getElem_self]
  | succ n ih =>
    intro st r h
    obtain ⟨b, c⟩ := List.getElem?_eq_some_iff.mp h
    have e : st.turn env i = ⟨(r.turn env cs st.files).1, st.runs.set i (cs, (r.turn env cs st.files).2)⟩ := by
      rw [Extracting.turn_eq, h]
    have := ih (st.turn env i) (r.turn env cs st.files).2 (by rw [e]; simp [b])
    rw [List.replicate_succ]
    show (st.turn env i).turns env (List.replicate n i) = _
    rw [this, e, Function.iterate_succ_apply]
    simp only [List.set_set]

/-- **C161, one after the other**: runs that do not overlap all end without error, and then every result file of every run
is complete and right, whatever files they find. -/
theorem C161_sequential (env : SharedEnv) (hT : NumberedTable env.infos) (hne : env.infos ≠ []) (s : SharedFiles)
    (channels : List (List Nat)) (hcs : ∀ cs ∈ channels, cs.Nodup) (hdis : channels.Pairwise List.Disjoint)
    (hm : ∀ cs ∈ channels, ∀ c ∈ cs, ∀ r ∈ env.infos, env.lines c r.name ≠ none) :
    ∃ n : Nat → Nat, let st := (Extracting.start s channels).turns env ((List.range channels.length).flatMap fun i => List.replicate (n i) i)
      ∀ (i : Nat) (cs : List Nat), channels[i]? = some cs → st.runs[i]? = some (cs, .ended) ∧ AllDone env st.files cs := by
  have key : ∀ k, k ≤ channels.length → ∃ n : Nat → Nat,
      let st := (Extracting.start s channels).turns env ((List.range k).flatMap fun i => List.replicate (n i) i)
      ∀ (i : Nat) (cs : List Nat), channels[i]? = some cs → st.runs[i]? = some (cs, if i < k then .ended else .openInfos) := by
    intro k
    induction k with
    | zero =>
      intro _
      refine ⟨fun _ => 0, fun i cs hi => ?_⟩
      simp [Extracting.turns, Extracting.start, hi]
    | succ k ih =>
      intro hk
      obtain ⟨n, hn⟩ := ih (by omega)
      obtain ⟨cs, hcsk⟩ : ∃ cs, channels[k]? = some cs := ⟨_, List.getElem?_eq_getElem (by omega)⟩
      have hstart := hn k cs hcsk
      simp only [Nat.lt_irrefl, if_false] at hstart
      obtain ⟨s', m, hm'⟩ := reaches_end hT hne cs (hm cs (List.mem_of_getElem? hcsk))
        ((Extracting.start s channels).turns env ((List.range k).flatMap fun i => List.replicate (n i) i)).files
      refine ⟨fun i => if i < k then n i else m, fun i cs' hi => ?_⟩
      have e : ((List.range (k + 1)).flatMap fun i => List.replicate (if i < k then n i else m) i) =
          ((List.range k).flatMap fun i => List.replicate (n i) i) ++ List.replicate m k := by
        rw [List.range_succ, List.flatMap_append]
        congr 1
        · simp only [List.flatMap_def]
          congr 1
          apply List.map_congr_left
          intro a ha
          rw [if_pos (List.mem_range.mp ha)]
        · simp
      have e2 : ∀ (a b : List Nat) (st : Extracting), st.turns env (a ++ b) = (st.turns env a).turns env b := by
        intro a b st; simp [Extracting.turns]
      rw [e, e2, Extracting.turns_replicate env k cs m _ _ hstart, hm']
      simp only
      rw [List.getElem?_set]
      by_cases hik : k = i
      · subst hik
        have hlt : k < ((Extracting.start s channels).turns env ((List.range k).flatMap fun i => List.replicate (n i) i)).runs.length :=
          (List.getElem?_eq_some_iff.mp hstart).1
        rw [hcsk] at hi
        obtain rfl := Option.some.inj hi
        simp [hlt]
      · rw [if_neg hik, hn i cs' hi]
        have : i < k ↔ i < k + 1 := by omega
        simp only [this]
  obtain ⟨n, hn⟩ := key channels.length (Nat.le_refl _)
  refine ⟨n, fun i cs hi => ?_⟩
  have hlt : i < channels.length := (List.getElem?_eq_some_iff.mp hi).1
  have h1 := hn i cs hi
  rw [if_pos hlt] at h1
  exact ⟨h1, (C161_turns_partial env hT hne s channels hcs hdis hm _ i cs hi).1 h1⟩

/-! ### What can go wrong, and a case where all goes well -/

/-- Two photos; the "measured" lines are the name of the photo. -/
def twoPhotos : SharedEnv := ⟨[⟨1, "a".toList, [], "0".toList⟩, ⟨2, "b".toList, [], "5".toList⟩], fun _ _ _ t => t, fun _ p => some p⟩

/-- An empty working directory. -/
def emptyFiles : SharedFiles := ⟨none, none, 0, fun _ _ => none⟩

theorem twoPhotos_numbered : NumberedTable twoPhotos.infos := by
  constructor
  · intro i h
    have h' : i < 2 := h
    match i, h' with
    | 0, _ => rfl
    | 1, _ => rfl
  · decide

/-- Run 0 and run 1 with steps in this order. -/
def steps (l : List (Nat × Nat)) : List Nat := l.flatMap fun p => List.replicate p.1 p.2

/-- **C161 refuted**: two runs, one for each channel. In the first interleaving both stop with no result file at all, one of
them without an error (it read the list while the other one was writing it). In the second one a run stops with an error in
the middle and leaves an empty result file. In the third one tables are written without interruption, and still the first
run stops with an error and has no result file (the other one removed the list). -/
theorem C161_false :
    (let st := (Extracting.start emptyFiles [[0], [1]]).exec twoPhotos (steps [(5, 0), (4, 1), (2, 0), (2, 1)]);
      st.runs = [([0], .ended), ([1], .failed .fileNotFound)] ∧ st.files.result 0 1 = none ∧ st.files.result 1 1 = none) ∧
    (let st := (Extracting.start emptyFiles [[0], [1]]).exec twoPhotos (steps [(8, 0), (1, 1), (1, 0), (1, 1), (3, 0)]);
      st.runs[0]? = some ([0], .failed .indexError) ∧ st.files.result 0 1 = some []) ∧
    (let st := (Extracting.start emptyFiles [[0], [1]]).turns twoPhotos (steps [(3, 0), (17, 1), (1, 0)]);
      st.runs = [([0], .failed .fileNotFound), ([1], .ended)] ∧ st.files.result 0 1 = none ∧
        st.files.result 1 2 = some "5b".toList) := by
  refine ⟨⟨?_, ?_, ?_⟩, ⟨?_, ?_⟩, ?_, ?_, ?_⟩ <;> decide +kernel

/-- Overlapping runs that both deliver: one of them ends with an error all the same, as the list is already gone. -/
example : (let st := (Extracting.start emptyFiles [[0], [1]]).turns twoPhotos (steps [(4, 0), (4, 1), (13, 0), (13, 1)]);
    st.runs = [([0], .ended), ([1], .failed .fileNotFound)] ∧ st.files.result 0 1 = some "0a".toList ∧
      st.files.result 0 2 = some "5b".toList ∧ st.files.result 1 1 = some "0a".toList ∧ st.files.result 1 2 = some "5b".toList) := by
  refine ⟨?_, ?_, ?_, ?_, ?_⟩ <;> decide +kernel

/-- One after the other. -/
example : (let st := (Extracting.start emptyFiles [[0], [1]]).turns twoPhotos (steps [(17, 0), (17, 1)]);
    st.runs = [([0], .ended), ([1], .ended)]) := by decide +kernel

/-- The texts in these examples are the right ones. -/
example : RightText twoPhotos 1 2 "5b".toList := ⟨⟨2, "b".toList, [], "5".toList⟩, by decide, rfl, "b".toList, rfl, rfl⟩

end Ledsa
