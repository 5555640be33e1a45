import Verif.Model.ConcurrentLoad
import Verif.Props.Binary
import Verif.Props.Extinction
import Verif.Model.Pipeline
/-
C172: several analyses at the same time.
-/
namespace Ledsa

/-! ### Specification -/

/-- The rows of the table `k` times one after the other. -/
def DataTable.times (f : DataTable) (k : ℕ) : DataTable := ⟨f.cols, (List.replicate k f.rows).flatten⟩

/-- The program has found no binary file and has not written one yet. -/
def LoadRun.creating : LoadRun → Bool
  | .build | .append _ => true
  | _ => false

/-- How many programs are creating the binary file of a channel. -/
def Loading.creating (st : Loading) (ch : ℕ) : ℕ := st.runs.countP fun p => p.1 = ch && p.2.creating

/-- How many programs work with a channel. -/
def Loading.programs (st : Loading) (ch : ℕ) : ℕ := st.runs.countP fun p => p.1 = ch

/-! ### Proofs -/

theorem DataTable.times_one (f : DataTable) : f.times 1 = f := by simp [DataTable.times]

theorem DataTable.times_succ (f : DataTable) (k : ℕ) : (⟨(f.times k).cols, (f.times k).rows ++ f.rows⟩ : DataTable) = f.times (k + 1) := by
  simp [DataTable.times, List.replicate_succ']

/-- The program has written or found the binary file. -/
def LoadRun.passed : LoadRun → Bool
  | .read | .loaded _ => true
  | _ => false

/-- What a program can be in if the file has `k` copies. -/
def LoadRun.Fits (F : DataTable) (k : ℕ) : LoadRun → Prop
  | .look | .build => True
  | .append f => f = F
  | .read => 1 ≤ k
  | .loaded g => ∃ j, 1 ≤ j ∧ j ≤ k ∧ g = F.times j
  | .failed _ => False

/-- The binary file with `k` copies. -/
def copies (F : DataTable) (k : ℕ) : Option DataTable := if k = 0 then none else some (F.times k)

/-- The state of a channel with `k` copies in its binary file. -/
structure LoadInv (w : HdfWorld) (ch : ℕ) (F : DataTable) (st : Loading) (k : ℕ) : Prop where
  world : ∃ b, st.world = { w with binary := b }
  file : st.world.binary w.cwd ch = copies F k
  count : k ≤ st.runs.countP fun p => p.1 = ch && p.2.passed
  fits : ∀ r, (ch, r) ∈ st.runs → r.Fits F k

theorem LoadRun.Fits.mono {F : DataTable} {k k' : ℕ} (h : k ≤ k') {r : LoadRun} (hr : r.Fits F k) : r.Fits F k' := by
  cases r with
  | read => exact le_trans hr h
  | loaded g => obtain ⟨j, a, b, c⟩ := hr; exact ⟨j, a, b.trans h, c⟩
  | _ => exact hr

theorem newFrame_binary (w : HdfWorld) (b : Str → ℕ → Option DataTable) (ch : ℕ) : newFrame { w with binary := b } ch = newFrame w ch := rfl

/-- A step of a program of another channel. -/
theorem LoadRun.step_other (w : HdfWorld) (ch ch' : ℕ) (h : ch' ≠ ch) (r : LoadRun) :
    (∃ b, (r.step w ch').1 = { w with binary := b }) ∧ (r.step w ch').1.binary w.cwd ch = w.binary w.cwd ch := by
  cases r with
  | look => simp only [LoadRun.step]; split <;> exact ⟨⟨_, rfl⟩, rfl⟩
  | build => simp only [LoadRun.step]; split <;> exact ⟨⟨_, rfl⟩, rfl⟩
  | append f =>
    simp only [LoadRun.step]
    split
    · exact ⟨⟨_, rfl⟩, by simp [HdfWorld.setBinary, Ne.symm h]⟩
    · split
      · exact ⟨⟨_, rfl⟩, by simp [HdfWorld.setBinary, Ne.symm h]⟩
      · exact ⟨⟨_, rfl⟩, rfl⟩
  | read => simp only [LoadRun.step]; split <;> exact ⟨⟨_, rfl⟩, rfl⟩
  | loaded f => exact ⟨⟨_, rfl⟩, rfl⟩
  | failed e => exact ⟨⟨_, rfl⟩, rfl⟩

/-- A step of a program of the channel. -/
theorem LoadRun.step_own (w : HdfWorld) (ch : ℕ) (F : DataTable) (hF : (newFrame w ch).1 = .ok F) (w' : HdfWorld)
    (hw : ∃ b, w' = { w with binary := b }) (k : ℕ) (hb : w'.binary w.cwd ch = copies F k) (r : LoadRun) (hr : r.Fits F k) :
    (∃ b, (r.step w' ch).1 = { w with binary := b }) ∧
    (((r.step w' ch).1.binary w.cwd ch = copies F k ∧ (r.step w' ch).2.Fits F k ∧ (r.passed = true → (r.step w' ch).2.passed = true) ∧
        ((r.step w' ch).2.creating = true → r.creating = true ∨ k = 0)) ∨
      (∃ f, r = .append f) ∧ (r.step w' ch).1.binary w.cwd ch = copies F (k + 1) ∧ (r.step w' ch).2 = .read) := by
  obtain ⟨b, rfl⟩ := hw
  have hb' : b w.cwd ch = copies F k := hb
  cases r with
  | look =>
    simp only [LoadRun.step]
    by_cases hk : k = 0
    · have hn : b w.cwd ch = none := by rw [hb', copies, if_pos hk]
      simp only [hn]
      exact ⟨⟨b, rfl⟩, .inl ⟨hn.symm.trans hb', trivial, by simp [LoadRun.passed], fun _ => .inr hk⟩⟩
    · have hn : b w.cwd ch = some (F.times k) := by rw [hb', copies, if_neg hk]
      simp only [hn]
      exact ⟨⟨b, rfl⟩, .inl ⟨hn.symm.trans hb', ⟨k, Nat.one_le_iff_ne_zero.2 hk, le_rfl, rfl⟩, by simp [LoadRun.passed], by simp [LoadRun.creating]⟩⟩
  | build =>
    simp only [LoadRun.step]
    rw [newFrame_binary, hF]
    exact ⟨⟨b, rfl⟩, .inl ⟨hb, rfl, by simp [LoadRun.passed], fun _ => .inl rfl⟩⟩
  | append f =>
    obtain rfl : f = F := hr
    simp only [LoadRun.step]
    by_cases hk : k = 0
    · have hn : b w.cwd ch = none := by rw [hb', copies, if_pos hk]
      simp only [hn]
      refine ⟨⟨_, rfl⟩, .inr ⟨by simp, ?_, by trivial⟩⟩
      subst hk
      simp [HdfWorld.setBinary, copies, DataTable.times_one]
    · have hn : b w.cwd ch = some (f.times k) := by rw [hb', copies, if_neg hk]
      simp only [hn]
      rw [if_pos (show f.cols = (f.times k).cols from rfl)]
      refine ⟨⟨_, rfl⟩, .inr ⟨by simp, ?_, by trivial⟩⟩
      rw [DataTable.times_succ]
      simp [HdfWorld.setBinary, copies]
  | read =>
    have hk : 1 ≤ k := hr
    simp only [LoadRun.step]
    have hn : b w.cwd ch = some (F.times k) := by rw [hb', copies, if_neg (by omega)]
    simp only [hn]
    exact ⟨⟨b, rfl⟩, .inl ⟨hn.symm.trans hb', ⟨k, hk, le_rfl, rfl⟩, by simp [LoadRun.passed], by simp [LoadRun.creating]⟩⟩
  | loaded g => exact ⟨⟨b, rfl⟩, .inl ⟨hb, hr, fun _ => rfl, by simp [LoadRun.step, LoadRun.creating]⟩⟩
  | failed e => exact hr.elim

theorem LoadInv.step {w : HdfWorld} {ch : ℕ} {F : DataTable} (hF : (newFrame w ch).1 = .ok F) {st : Loading} {k : ℕ} (h : LoadInv w ch F st k) (i : ℕ) :
    (LoadInv w ch F (st.step i) k ∧ (k ≠ 0 → (st.step i).creating ch ≤ st.creating ch)) ∨
      (LoadInv w ch F (st.step i) (k + 1) ∧ (st.step i).creating ch + 1 = st.creating ch) := by
  unfold Loading.step
  cases hi : st.runs[i]? with
  | none => exact .inl ⟨h, fun _ => le_rfl⟩
  | some p =>
    obtain ⟨c, r⟩ := p
    obtain ⟨hlt, he⟩ := List.getElem?_eq_some_iff.1 hi
    have hmem : (c, r) ∈ st.runs := he ▸ List.getElem_mem hlt
    obtain ⟨b, hb⟩ := h.world
    have hcwd : st.world.cwd = w.cwd := by rw [hb]
    by_cases hc : c = ch
    · subst hc
      obtain ⟨hw, hcase⟩ := LoadRun.step_own w c F hF st.world h.world k h.file r (h.fits r hmem)
      rcases hcase with ⟨a1, a2, a3, a4⟩ | ⟨⟨f, rfl⟩, a1, a2⟩
      · refine .inl ⟨⟨hw, a1, h.count.trans ?_, fun r' hr' => ?_⟩, fun hk => ?_⟩
        · rw [List.countP_set hlt, he]
          simp only [decide_true, Bool.true_and]
          have hpos : r.passed = true → 0 < st.runs.countP fun p => p.1 = c && p.2.passed := fun hp =>
            List.countP_pos_iff.2 ⟨_, hmem, by simp [hp]⟩
          by_cases hp : r.passed = true
          · have := hpos hp
            simp only [hp, a3 hp, if_true]
            omega
          · simp only [hp]
            simp
        · rcases List.mem_or_eq_of_mem_set hr' with hm | hm
          · exact h.fits r' hm
          · cases hm; exact a2
        · show List.countP _ (List.set _ _ _) ≤ _
          rw [List.countP_set hlt, he]
          simp only [decide_true, Bool.true_and]
          show _ ≤ List.countP _ _
          by_cases hp : (r.step st.world c).2.creating = true
          · have hr : r.creating = true := (a4 hp).resolve_right hk
            have hpos : 0 < st.runs.countP fun p => p.1 = c && p.2.creating := List.countP_pos_iff.2 ⟨_, hmem, by simp [hr]⟩
            simp only [hp, hr, if_true]
            omega
          · simp only [hp]
            simp
      · refine .inr ⟨⟨hw, a1, ?_, fun r' hr' => ?_⟩, ?_⟩
        · rw [List.countP_set hlt, he, a2]
          have := h.count
          have e1 : LoadRun.read.passed = true := rfl
          have e2 : (LoadRun.append f).passed = false := rfl
          simp only [e1, e2, decide_true, Bool.true_and, Bool.false_eq_true, if_false, if_true]
          omega
        · rcases List.mem_or_eq_of_mem_set hr' with hm | hm
          · exact (h.fits r' hm).mono (Nat.le_succ k)
          · cases hm
            rw [a2]
            exact Nat.succ_le_succ (Nat.zero_le k)
        · show List.countP _ (List.set _ _ _) + 1 = _
          rw [List.countP_set hlt, he, a2]
          have hpos : 0 < st.runs.countP fun p => p.1 = c && p.2.creating := List.countP_pos_iff.2 ⟨_, hmem, by simp [LoadRun.creating]⟩
          show _ = List.countP _ _
          simp only [LoadRun.creating, decide_true, Bool.true_and, Bool.and_false, if_true, Bool.false_eq_true, if_false]
          simp only [LoadRun.creating] at hpos
          omega
    · obtain ⟨⟨b', hb'⟩, hbin⟩ := LoadRun.step_other st.world ch c hc r
      have hne : ∀ (q : LoadRun → Bool) (x : LoadRun), (decide (c = ch) && q x) = false := fun q x => by simp [hc]
      refine .inl ⟨⟨⟨b', ?_⟩, ?_, ?_, fun r' hr' => ?_⟩, fun _ => ?_⟩
      · show (r.step st.world c).1 = _
        rw [hb', hb]
      · show (r.step st.world c).1.binary w.cwd ch = _
        rw [← hcwd, hbin, hcwd]
        exact h.file
      · refine h.count.trans ?_
        rw [List.countP_set hlt, he]
        simp [hc]
      · rcases List.mem_or_eq_of_mem_set hr' with hm | hm
        · exact h.fits r' hm
        · cases hm; exact absurd rfl hc
      · show List.countP _ (List.set _ _ _) ≤ List.countP _ _
        rw [List.countP_set hlt, he]
        simp [hc]

theorem LoadInv.exec {w : HdfWorld} {ch : ℕ} {F : DataTable} (hF : (newFrame w ch).1 = .ok F) (schedule : List ℕ) :
    ∀ {st : Loading} {k : ℕ}, LoadInv w ch F st k → ∃ k', k ≤ k' ∧ LoadInv w ch F (st.exec schedule) k' := by
  induction schedule with
  | nil => exact fun h => ⟨_, le_rfl, h⟩
  | cons i t ih =>
    intro st k h
    rcases h.step hF i with ⟨h', -⟩ | ⟨h', -⟩
    · exact ih h'
    · obtain ⟨k', a, b⟩ := ih h'
      exact ⟨k', by omega, b⟩

theorem LoadInv.start (w : HdfWorld) (ch : ℕ) (F : DataTable) (hb : w.binary w.cwd ch = none) (channels : List ℕ) :
    LoadInv w ch F (.start w channels) 0 := by
  refine ⟨⟨w.binary, rfl⟩, hb, Nat.zero_le _, fun r hr => ?_⟩
  simp only [Loading.start, List.mem_map, Prod.mk.injEq] at hr
  obtain ⟨c, -, -, rfl⟩ := hr
  trivial

theorem Loading.step_programs (st : Loading) (i ch : ℕ) : (st.step i).programs ch = st.programs ch := by
  unfold Loading.step
  cases hi : st.runs[i]? with
  | none => rfl
  | some p =>
    obtain ⟨c, r⟩ := p
    obtain ⟨hlt, he⟩ := List.getElem?_eq_some_iff.1 hi
    show List.countP _ (List.set _ _ _) = List.countP _ _
    rw [List.countP_set hlt, he]
    by_cases hc : c = ch
    · have hpos : 0 < st.runs.countP fun p => p.1 = ch := List.countP_pos_iff.2 ⟨_, List.getElem_mem hlt, by simp [he, hc]⟩
      simp [hc]
      omega
    · simp [hc]

theorem Loading.exec_programs (schedule : List ℕ) : ∀ (st : Loading) (ch : ℕ), (st.exec schedule).programs ch = st.programs ch := by
  induction schedule with
  | nil => exact fun _ _ => rfl
  | cons i t ih => exact fun st ch => (ih (st.step i) ch).trans (st.step_programs i ch)

theorem programs_start (w : HdfWorld) (channels : List ℕ) (ch : ℕ) : (Loading.start w channels).programs ch = channels.count ch := by
  unfold Loading.programs Loading.start
  rw [List.countP_map, List.count]
  refine List.countP_congr fun x _ => ?_
  simp

/-- **C172 (alone).** The steps of a single new program are those of `read_hdf`. -/
theorem C172_alone (w : HdfWorld) (ch : ℕ) :
    ∃ r, ((Loading.start w [ch]).exec [0, 0, 0, 0]).runs = [(ch, r)] ∧
      (r = match (readHdf w ch w.cwd).1 with
        | .ok f => .loaded f
        | .error e => .failed e) ∧
      ((Loading.start w [ch]).exec [0, 0, 0, 0]).world.binary = (readHdf w ch w.cwd).2.binary := by
  unfold readHdf createBinary Loading.exec
  cases hb : w.binary w.cwd ch with
  | some f =>
    refine ⟨.loaded f, ?_, rfl, ?_⟩ <;> simp [Loading.start, Loading.step, LoadRun.step, hb]
  | none =>
    cases hf : (newFrame w ch).1 with
    | error e =>
      refine ⟨.failed e, ?_, ?_, ?_⟩ <;> simp [Loading.start, Loading.step, LoadRun.step, hb, hf]
    | ok f =>
      refine ⟨.loaded f, ?_, ?_, ?_⟩ <;> simp [Loading.start, Loading.step, LoadRun.step, hb, hf, HdfWorld.setBinary]

/-- **C172 (any number of programs).** Whatever the interleaving, no program fails to load its table, and each program loads the rows of the
result files a whole number of times, at most as often as there are programs for this channel. -/
theorem C172_copies (w : HdfWorld) (ch : ℕ) (F : DataTable) (hF : (newFrame w ch).1 = .ok F) (hb : w.binary w.cwd ch = none)
    (channels schedule : List ℕ) (r : LoadRun) (hr : (ch, r) ∈ ((Loading.start w channels).exec schedule).runs) :
    (∀ e, r ≠ .failed e) ∧ ∀ g, r = .loaded g → ∃ j, 1 ≤ j ∧ j ≤ channels.count ch ∧ g = F.times j := by
  obtain ⟨k, -, h⟩ := LoadInv.exec hF schedule (LoadInv.start w ch F hb channels)
  have hf := h.fits r hr
  refine ⟨fun e he => by subst he; exact hf, fun g hg => ?_⟩
  subst hg
  obtain ⟨j, a, b, c⟩ := hf
  refine ⟨j, a, b.trans (h.count.trans ?_), c⟩
  rw [← programs_start w channels ch, ← Loading.exec_programs schedule]
  exact List.countP_mono_left fun p _ hp => by simp only [Bool.and_eq_true] at hp; exact hp.1

/-- **C172 (one after the other).** As long as never two programs are creating the binary file of the channel at the same moment, every
program for this channel loads exactly the rows of the result files. -/
theorem C172_one_by_one (w : HdfWorld) (ch : ℕ) (F : DataTable) (hF : (newFrame w ch).1 = .ok F) (hb : w.binary w.cwd ch = none)
    (channels schedule : List ℕ) (hone : ∀ n, ((Loading.start w channels).exec (schedule.take n)).creating ch ≤ 1)
    (r : LoadRun) (hr : (ch, r) ∈ ((Loading.start w channels).exec schedule).runs) (g : DataTable) (hg : r = .loaded g) : g = F := by
  have key : ∀ (s : List ℕ) (st : Loading) (k : ℕ), LoadInv w ch F st k → k ≤ 1 → (k = 1 → st.creating ch = 0) →
      (∀ n, (st.exec (s.take n)).creating ch ≤ 1) → ∃ k', k' ≤ 1 ∧ LoadInv w ch F (st.exec s) k' := by
    intro s
    induction s with
    | nil => exact fun st k h hk _ _ => ⟨k, hk, h⟩
    | cons i t ih =>
      intro st k h hk h1 hn
      have hn0 : st.creating ch ≤ 1 := by simpa [Loading.exec] using hn 0
      have hn' : ∀ n, ((st.step i).exec (t.take n)).creating ch ≤ 1 := fun n => by simpa [Loading.exec] using hn (n + 1)
      rcases h.step hF i with ⟨h', hc⟩ | ⟨h', hc⟩
      · refine ih (st.step i) k h' hk (fun hk1 => ?_) hn'
        have := hc (by omega)
        have := h1 hk1
        omega
      · have hk0 : k = 0 := by
          by_contra hne
          have := h1 (by omega)
          omega
        subst hk0
        exact ih (st.step i) 1 h' le_rfl (fun _ => by omega) hn'
  obtain ⟨k, hk, h⟩ := key schedule _ 0 (LoadInv.start w ch F hb channels) (by omega) (by omega) hone
  have hf := h.fits r hr
  subst hg
  obtain ⟨j, a, b, c⟩ := hf
  obtain rfl : j = 1 := by omega
  rw [c, DataTable.times_one]

/-- **C172 (different channels).** A program whose channel no other program works with loads exactly the rows of the result files. -/
theorem C172_channels (w : HdfWorld) (ch : ℕ) (F : DataTable) (hF : (newFrame w ch).1 = .ok F) (hb : w.binary w.cwd ch = none)
    (channels schedule : List ℕ) (hone : channels.count ch ≤ 1) (r : LoadRun)
    (hr : (ch, r) ∈ ((Loading.start w channels).exec schedule).runs) : (∀ e, r ≠ .failed e) ∧ ∀ g, r = .loaded g → g = F := by
  obtain ⟨h1, h2⟩ := C172_copies w ch F hF hb channels schedule r hr
  refine ⟨h1, fun g hg => ?_⟩
  obtain ⟨j, a, b, c⟩ := h2 g hg
  obtain rfl : j = 1 := by omega
  rw [c, DataTable.times_one]

/-- **C172 refuted**: two programs for the same channel that both look for the binary file before one of them has written it. Each row is
in the file twice, and both programs load it like this. -/
theorem C172_false (w : HdfWorld) (ch : ℕ) (F : DataTable) (hF : (newFrame w ch).1 = .ok F) (hb : w.binary w.cwd ch = none) :
    ((Loading.start w [ch, ch]).exec [0, 1, 0, 1, 0, 1, 0, 1]).runs = [(ch, .loaded (F.times 2)), (ch, .loaded (F.times 2))] ∧
    ((Loading.start w [ch, ch]).exec [0, 1, 0, 1, 0, 1, 0, 1]).world.binary w.cwd ch = some (F.times 2) := by
  have e : F.times 2 = ⟨F.cols, F.rows ++ F.rows⟩ := by simp [DataTable.times, List.replicate]
  have hF' : ∀ b, (newFrame { w with binary := b } ch).1 = .ok F := fun b => hF
  rw [e]
  constructor <;> simp [Loading.exec, Loading.start, Loading.step, LoadRun.step, hb, hF, HdfWorld.setBinary]

/-! ### What the analysis makes of it -/

/-- The rows of the array `arr` in a table with `k` copies. -/
theorem frameRows_times (f : DataTable) (k : ℕ) (prop : String) : frameRows (f.times k) prop = (List.replicate k (frameRows f prop)).flatten := by
  unfold frameRows DataTable.times
  rw [List.map_flatten, List.map_replicate]
  rfl

theorem groupKeys_double (l : List ℕ) : groupKeys (l ++ l) = groupKeys l := groupKeys_eq (groupKeys_sorted l) fun x => by
  rw [groupKeys_mem, List.mem_append, or_self]

theorem meanOf_double (l : List ℝ) : meanOf (l ++ l) = meanOf l := by
  unfold meanOf
  rw [List.sum_append, List.length_append]
  push_cast
  rw [← two_mul, ← two_mul, mul_div_mul_left _ _ two_ne_zero]

/-- The reference intensities do not show that every row is there twice. -/
theorem refIntensities_double (c : RefChoice) (d : ImgData ℝ) : refIntensities c (d ++ d) = refIntensities c d := by
  unfold refIntensities refData
  rw [List.filter_append, List.map_append, groupKeys_double]
  refine List.map_congr_left fun l _ => ?_
  unfold refMean ledValues refData
  rw [List.filter_append, List.filter_append, List.map_append, meanOf_double]

/-- The first exception ends a loop. -/
theorem mapM_first_error {α β : Type} (f : α → Except PyErr β) (e : PyErr) : ∀ (l : List α) (n : ℕ), (∀ k a, k < n → l[k]? = some a → ∃ b, f a = .ok b) →
    (∃ a, l[n]? = some a ∧ f a = .error e) → l.mapM f = .error e
  | [], n, _, ⟨a, h, _⟩ => by simp at h
  | x :: l, 0, _, ⟨a, h, h'⟩ => by
    simp only [List.getElem?_cons_zero, Option.some.injEq] at h
    rw [List.mapM_cons, h, h']
    rfl
  | x :: l, n + 1, h, ⟨a, h1, h2⟩ => by
    obtain ⟨b, hb⟩ := h 0 x (Nat.succ_pos n) rfl
    rw [List.mapM_cons, hb, mapM_first_error f e l n (fun k a hk ha => h (k + 1) a (by omega) (by simpa using ha)) ⟨a, by simpa using h1, h2⟩]
    rfl

theorem imgValues_double (d : ImgData ℝ) (i : ℕ) : imgValues (d ++ d) i = imgValues d i ++ imgValues d i := by
  unfold imgValues
  rw [List.filter_append, List.map_append]

/-- **C172 (analysis, refuted).** In a table in which every row is there twice each image has twice as many values as there are reference
intensities: the analysis of an array of at least two LEDs, complete in all images and with a reference image, ends with an exception, in
one process with `ValueError`, with several processes with `KeyError`. -/
theorem C172_analysis_false (f : DataTable) (prop : String) (arr : ℕ) (c : RefChoice) (N : ℕ) (leds : List ℕ) (hN : 0 < N) (hl : leds.Pairwise (· < ·))
    (h2 : 2 ≤ leds.length) (d : ImgData ℝ) (hd : arrayData (frameRows f prop) arr = .ok d)
    (hrows : ∀ i, ((d.filter fun r => r.1 = i).map (·.2.1)) = if 1 ≤ i ∧ i ≤ N then leds else [])
    (href : ∃ i, 1 ≤ i ∧ i ≤ N ∧ c.selects i = true) :
    arrayData (frameRows (f.times 2) prop) arr = .ok (d ++ d) ∧ refIntensities c (d ++ d) = refIntensities c d ∧
      serialRel (d ++ d) (refIntensities c (d ++ d)) = .error .valueError ∧ poolRel (d ++ d) (refIntensities c (d ++ d)) = .error .keyError := by
  have hlen : ∀ i, (imgValues d i).length = if 1 ≤ i ∧ i ≤ N then leds.length else 0 := by
    intro i
    have := congrArg List.length (hrows i)
    unfold imgValues
    rw [List.length_map] at this ⊢
    rw [this]
    split <;> simp
  have himg : ∀ i, i ∈ d.map (·.1) ↔ 1 ≤ i ∧ i ≤ N := by
    intro i
    have hne : (d.filter fun r => r.1 = i) ≠ [] ↔ 1 ≤ i ∧ i ≤ N := by
      have := congrArg List.length (hrows i)
      rw [List.length_map] at this
      rw [← List.length_pos_iff, this]
      split
      · rename_i h; simp only [h]; simp; omega
      · rename_i h; simp only [h]; simp
    rw [← hne]
    simp [List.filter_eq_nil_iff]
  have hmemled : ∀ i l, 1 ≤ i → i ≤ N → l ∈ leds → ∃ r ∈ d, r.1 = i ∧ r.2.1 = l := by
    intro i l a b hm
    have := hrows i
    rw [if_pos ⟨a, b⟩] at this
    rw [← this, List.mem_map] at hm
    obtain ⟨r, hr, rfl⟩ := hm
    rw [List.mem_filter] at hr
    exact ⟨r, hr.1, by simpa using hr.2, rfl⟩
  have hled : ∀ r ∈ d, r.2.1 ∈ leds := by
    intro r hr
    have hi := (himg r.1).1 (List.mem_map.2 ⟨r, hr, rfl⟩)
    have := hrows r.1
    rw [if_pos hi] at this
    rw [← this]
    exact List.mem_map.2 ⟨r, List.mem_filter.2 ⟨hr, by simp⟩, rfl⟩
  have href' : (refIntensities c d).length = leds.length := by
    unfold refIntensities
    rw [List.length_map, groupKeys_eq hl fun x => ?_]
    obtain ⟨i, a, b, hs⟩ := href
    constructor
    · intro hx
      obtain ⟨r, hr, rfl⟩ := List.mem_map.1 hx
      exact hled r (List.mem_filter.1 hr).1
    · intro hx
      obtain ⟨r, hr, h1, h3⟩ := hmemled i x a b hx
      exact List.mem_map.2 ⟨r, List.mem_filter.2 ⟨hr, by rw [h1]; exact hs⟩, h3⟩
  have hdiv : ∀ i, 1 ≤ i → i ≤ N → npDivide (imgValues (d ++ d) i) (refIntensities c d) = .error .valueError := by
    intro i a b
    have h1 : (imgValues (d ++ d) i).length = leds.length + leds.length := by rw [imgValues_double, List.length_append, hlen, if_pos ⟨a, b⟩]
    unfold npDivide
    rw [if_neg (by rw [h1, href']; omega)]
    split
    · rename_i hx; rw [hx] at h1; simp at h1; omega
    · rename_i hx _; rw [hx] at href'; simp at href'; omega
    · rfl
  refine ⟨?_, refIntensities_double c d, ?_, ?_⟩
  · unfold arrayData at hd ⊢
    rw [frameRows_times]
    simp only [List.replicate, List.flatten_cons, List.flatten_nil, List.append_nil, List.filter_append, List.map_append]
    split at hd
    · cases hd
    · rename_i hx hne
      obtain rfl := Except.ok.inj hd
      split
      · rename_i hz
        exact absurd (List.append_eq_nil_iff.1 hz).1 hne
      · rfl
  · rw [refIntensities_double]
    unfold serialRel
    rw [List.map_append, groupKeys_double]
    have h1 : 1 ∈ groupKeys (d.map (·.1)) := (groupKeys_mem _ _).2 ((himg 1).2 ⟨le_rfl, hN⟩)
    obtain ⟨i0, hi0⟩ : ∃ i0, (groupKeys (d.map (·.1)))[0]? = some i0 := by
      cases hk : groupKeys (d.map (·.1)) with
      | nil => rw [hk] at h1; simp at h1
      | cons a t => exact ⟨a, rfl⟩
    have hm := (himg i0).1 ((groupKeys_mem _ _).1 (List.mem_of_getElem? hi0))
    exact mapM_first_error _ _ _ 0 (fun k a hk => absurd hk (Nat.not_lt_zero k)) ⟨i0, hi0, hdiv i0 hm.1 hm.2⟩
  · rw [refIntensities_double]
    have harr : toArray (d ++ d) = .error .keyError := by
      unfold toArray
      rw [List.map_append, List.map_append, groupKeys_double, groupKeys_double]
      have hk2 : groupKeys (d.map (·.2.1)) = leds := groupKeys_eq hl fun x => by
        constructor
        · intro hx
          obtain ⟨r, hr, rfl⟩ := List.mem_map.1 hx
          exact hled r hr
        · intro hx
          obtain ⟨r, hr, h1, h3⟩ := hmemled 1 x le_rfl hN hx
          exact List.mem_map.2 ⟨r, hr, h3⟩
      rw [hk2]
      cases hk1 : groupKeys (d.map (·.1)) with
      | nil =>
        have h1 : 1 ∈ groupKeys (d.map (·.1)) := (groupKeys_mem _ _).2 ((himg 1).2 ⟨le_rfl, hN⟩)
        rw [hk1] at h1; simp at h1
      | cons i0 t =>
        have hm := (himg i0).1 ((groupKeys_mem _ _).1 (hk1 ▸ List.mem_cons_self))
        cases hleds : leds with
        | nil => rw [hleds] at h2; simp at h2
        | cons l0 t' =>
          have hn : ∀ i, 1 ≤ i → i ≤ N → (imgValues (d ++ d) i).length = leds.length + leds.length := fun i a b => by
            rw [imgValues_double, List.length_append, hlen, if_pos ⟨a, b⟩]
          have hcount : N ≤ (ledValues d l0).length := by
            unfold ledValues
            have hsub : List.range' 1 N ⊆ (d.filter fun r => r.2.1 = l0).map (·.1) := by
              intro i hi
              rw [List.mem_range'_1] at hi
              obtain ⟨r, hr, h1, h3⟩ := hmemled i l0 hi.1 (by omega) (by rw [hleds]; exact List.mem_cons_self)
              exact List.mem_map.2 ⟨r, List.mem_filter.2 ⟨hr, by simpa using h3⟩, h1⟩
            have := (List.subperm_of_subset List.nodup_range' hsub).length_le
            simpa using this
          have hcount2 : N < (ledValues (d ++ d) l0).length := by
            have : ledValues (d ++ d) l0 = ledValues d l0 ++ ledValues d l0 := by
              unfold ledValues
              rw [List.filter_append, List.map_append]
            rw [this, List.length_append]
            omega
          refine mapM_first_error _ _ _ N (fun k a hk ha => ?_) ⟨N, by rw [List.getElem?_range hcount2], ?_⟩
          · rw [List.getElem?_range (by omega)] at ha
            obtain rfl := Option.some.inj ha
            have e1 := hn (k + 1) (by omega) (by omega)
            unfold arrayRow
            split
            · rename_i hx; rw [hx] at e1; simp at e1; omega
            · exact ⟨_, rfl⟩
            · rw [if_pos (by rw [e1, hn i0 hm.1 hm.2])]
              exact ⟨_, rfl⟩
          · unfold arrayRow
            have : imgValues (d ++ d) (N + 1) = [] := by
              rw [imgValues_double]
              have := hlen (N + 1)
              rw [if_neg (by omega), List.length_eq_zero_iff] at this
              rw [this]; rfl
            rw [this]
    unfold poolRel
    rw [harr]

/-- Two programs for channel 0, one after the other: four rows each. Both looking first: eight rows each. -/
example : ((Loading.start exampleDir [0, 0]).exec [0, 0, 0, 1, 0]).runs = [(0, .loaded exampleFrame), (0, .loaded exampleFrame)] ∧
    ((Loading.start exampleDir [0, 0]).exec [0, 1, 0, 0, 1, 0, 1, 1]).runs = [(0, .loaded exampleFrame), (0, .loaded (exampleFrame.times 2))] ∧
    (exampleFrame.times 2).rows.length = 8 := by
  refine ⟨?_, ?_, ?_⟩ <;> decide +kernel

example : let d : ImgData ℚ := [(1, 0, 2), (1, 1, 3), (2, 0, 1), (2, 1, 3)]
    refIntensities (.first 1) (d ++ d) = [2, 3] ∧ serialRel d [2, 3] = .ok [[1, 1], [1 / 2, 1]] ∧
    serialRel (d ++ d) [2, 3] = .error .valueError ∧ poolRel (d ++ d) [2, 3] = .error .keyError := by
  refine ⟨?_, ?_, ?_, ?_⟩ <;> decide +kernel

end Ledsa
