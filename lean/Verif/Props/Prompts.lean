import Verif.Model.Prompts
import Verif.Props.Config
/-
C56: the dialogue asks exactly for missing parameters and keeps the others. C57: the time reference image.
-/
namespace Ledsa

theorem joinChar_splitChar (c : Char) : ∀ s : Str, joinChar c (splitChar c s) = s
  | [] => rfl
  | x :: xs => by
    have ih := joinChar_splitChar c xs
    unfold splitChar
    cases h : splitChar c xs with
    | nil => exact absurd h (splitChar_ne_nil c xs)
    | cons f fs =>
      rw [h] at ih
      by_cases hx : x = c
      · rw [if_pos hx, joinChar, ih, hx, List.nil_append]
        exact List.cons_ne_nil _ _
      · rw [if_neg hx]
        cases fs with
        | nil => simp only [joinChar] at ih ⊢; rw [ih]
        | cons g gs => simp only [joinChar] at ih ⊢; rw [List.cons_append, ih]

/-! ### Specification -/

/-- The option exists and says `None`. -/
def Unset (c : Cfg) (k : Key) : Prop := c k = some "None".toList

/-- The option does not exist or says `None`. -/
def Missing (c : Cfg) (k : Key) : Prop := c k = none ∨ Unset c k

instance (c : Cfg) (k : Key) : Decidable (Unset c k) := by unfold Unset; infer_instance
instance (c : Cfg) (k : Key) : Decidable (Missing c k) := by unfold Missing; infer_instance

/-- Neither a time reference image nor the offset is given. -/
def NoTimeRef (c : Cfg) : Prop := Missing c .timeRefId ∧ Missing c .timeRefFile ∧ Unset c .exifDiff

instance (c : Cfg) : Decidable (NoTimeRef c) := by unfold NoTimeRef; infer_instance

/-- The questions that have to be asked, in order: the plain parameters that are unset; the id of the time reference image
if nothing about it is known, its file if the id was answered by `None`; the time on the clock if it is needed and unset. -/
def questions (c : Cfg) (ans : Key → Str) : List Key :=
  [.imgDir, .imgName].filter (Unset c) ++
  (if NoTimeRef c then [.timeRefId] else []) ++
  (if NoTimeRef c ∧ ans .timeRefId = "None".toList then [.timeRefFile] else []) ++
  (if Unset c .exifDiff ∧ Unset c .timeRefTime then [.timeRefTime] else []) ++
  [.refImg, .maxLeds, .firstExp, .lastExp, .numArrays].filter (Unset c)

/-! ### Frames -/

theorem andThen_ok {r : PRes} (f : PWorld → PRes) (h : r.2 = none) : r.andThen f = f r.1 := by
  unfold PRes.andThen; rw [h]

theorem andThen_error {r : PRes} (f : PWorld → PRes) {e : PyErr} (h : r.2 = some e) : r.andThen f = r := by
  unfold PRes.andThen; rw [h]

/-- Options outside `S` are not touched, in memory. -/
def Touches (f : PWorld → PRes) (S : List Key) : Prop := ∀ w k, k ∉ S → (f w).1.cfg k = w.cfg k

theorem Touches.mono {f : PWorld → PRes} {S T : List Key} (h : Touches f S) (hs : ∀ k ∈ S, k ∈ T) : Touches f T :=
  fun w k hk => h w k fun hm => hk (hs k hm)

theorem Touches.andThen {f g : PWorld → PRes} {S : List Key} (hf : Touches f S) (hg : Touches g S) :
    Touches (fun w => (f w).andThen g) S := by
  intro w k hk
  have h1 := hf w k hk
  simp only
  cases h : (f w).2 with
  | some e => rw [andThen_error g h]; exact h1
  | none => rw [andThen_ok g h, hg _ k hk, h1]

theorem touches_setKey (k : Key) (v : Str) : Touches (setKey k v) [k] := by
  intro w j hj
  unfold setKey
  split
  · simp only; rw [if_neg (by simpa using hj)]
  · rfl

theorem touches_askFor (ans : Key → Str) (k : Key) : Touches (askFor ans k) [k] := by
  intro w j hj
  unfold askFor
  rw [touches_setKey k _ _ j hj]

theorem touches_save : Touches saveCfg [] := fun _ _ _ => rfl

theorem touches_stepDirect (ans : Key → Str) (k : Key) : Touches (stepDirect ans k) [k] := by
  intro w j hj
  unfold stepDirect
  split
  · rfl
  · split
    · exact ((touches_askFor ans k).andThen (touches_save.mono (by simp))) w j hj
    · rfl

theorem touches_stepsDirect (ans : Key → Str) : ∀ ks : List Key, Touches (stepsDirect ans ks) ks
  | [] => fun _ _ _ => rfl
  | k :: ks => by
    intro w j hj
    exact (((touches_stepDirect ans k).mono (by simp)).andThen
      ((touches_stepsDirect ans ks).mono (T := k :: ks) (fun x hx => List.mem_cons_of_mem _ hx))) w j hj

theorem touches_stepTimeRef (ans : Key → Str) (k : Key) : Touches (stepTimeRef ans k) [k] := by
  intro w j hj
  unfold stepTimeRef
  split
  · split
    · rfl
    · split
      · exact ((touches_askFor ans k).andThen (touches_save.mono (by simp))) w j hj
      · rfl
  · rfl

theorem touches_askClock (ans : Key → Str) : Touches (askClock ans) [.timeRefTime] := by
  intro w j hj
  unfold askClock
  split
  · rfl
  · split
    · exact touches_askFor ans _ w j hj
    · rfl

theorem touches_storeOffset (env : PEnv) (p : Str) : Touches (storeOffset env p) [.date, .exifDiff] := by
  intro w j hj
  unfold storeOffset
  split
  · rfl
  · split
    · rfl
    · split
      · refine Touches.andThen ((touches_setKey _ _).mono (T := [.date, .exifDiff]) (by simp)) ?_ w j hj
        intro w k hk
        simp only
        split
        · rfl
        · split
          · rfl
          · exact (touches_setKey _ _) w k (fun hm => hk (by simp at hm; simp [hm]))
      · rfl

theorem touches_timeDiff (env : PEnv) (ans : Key → Str) : Touches (timeDiff env ans) [.timeRefTime, .date, .exifDiff] := by
  intro w j hj
  unfold timeDiff
  split
  · rfl
  · exact (((touches_askClock ans).mono (by simp)).andThen
      ((touches_storeOffset env _).mono (T := [.timeRefTime, .date, .exifDiff]) (by simp))) w j hj

theorem touches_stepOffset (env : PEnv) (ans : Key → Str) : Touches (stepOffset env ans) [.timeRefTime, .date, .exifDiff] := by
  intro w j hj
  unfold stepOffset
  split
  · rfl
  · split
    · exact ((touches_timeDiff env ans).andThen (touches_save.mono (by simp))) w j hj
    · rfl

/-! ### Questions -/

/-- The part `f` of the program asks the questions `L`, unless it stops before with an exception. -/
def Asks (f : PWorld → PRes) (w : PWorld) (L : List Key) : Prop :=
  ∃ l, (f w).1.asked = w.asked ++ l ∧ l <+: L ∧ ((f w).2 = none → l = L)

theorem Asks.andThen {f g : PWorld → PRes} {w : PWorld} {L M : List Key} (hf : Asks f w L)
    (hg : (f w).2 = none → Asks g (f w).1 M) : Asks (fun w => (f w).andThen g) w (L ++ M) := by
  obtain ⟨l, h1, h2, h3⟩ := hf
  unfold Asks
  simp only
  cases h : (f w).2 with
  | some e =>
    rw [andThen_error g h]
    exact ⟨l, h1, h2.trans (List.prefix_append _ _), fun h' => by rw [h] at h'; cases h'⟩
  | none =>
    rw [andThen_ok g h]
    obtain ⟨m, g1, g2, g3⟩ := hg h
    have hl := h3 h
    refine ⟨l ++ m, ?_, ?_, ?_⟩
    · rw [g1, h1, List.append_assoc]
    · rw [hl]; exact (List.prefix_append_right_inj L).2 g2
    · intro h'; rw [hl, g3 h']

theorem asks_nil {f : PWorld → PRes} {w : PWorld} (h : (f w).1.asked = w.asked) : Asks f w [] :=
  ⟨[], by simp [h], List.prefix_rfl, fun _ => rfl⟩

theorem setKey_asked (k : Key) (v : Str) (w : PWorld) : (setKey k v w).1.asked = w.asked := by
  unfold setKey; split <;> rfl

theorem asks_askFor (ans : Key → Str) (k : Key) (w : PWorld) : Asks (askFor ans k) w [k] := by
  refine ⟨[k], ?_, List.prefix_rfl, fun _ => rfl⟩
  unfold askFor
  rw [setKey_asked]

theorem asks_ask_save (ans : Key → Str) (k : Key) (w : PWorld) : Asks (fun w => (askFor ans k w).andThen saveCfg) w [k] := by
  have := (asks_askFor ans k w).andThen (g := saveCfg) (M := []) (fun _ => asks_nil rfl)
  simpa using this

/-- Nothing was asked because of an exception. -/
theorem asks_error {f : PWorld → PRes} {w w' : PWorld} {e : PyErr} {L : List Key} (h : f w = (w', some e))
    (hw : w'.asked = w.asked) : Asks f w L := by
  refine ⟨[], ?_, List.nil_prefix, ?_⟩
  · rw [h]; simp [hw]
  · rw [h]; intro h'; cases h'

theorem asks_stepDirect (ans : Key → Str) (k : Key) (w : PWorld) : Asks (stepDirect ans k) w ([k].filter (Unset w.cfg)) := by
  cases h : w.cfg k with
  | none => exact asks_error (by unfold stepDirect; rw [h]) rfl
  | some v =>
    by_cases hv : v = noneText
    · have e : stepDirect ans k w = (askFor ans k w).andThen saveCfg := by
        unfold stepDirect; rw [h]; simp only; rw [if_pos hv]
      have hu : [k].filter (Unset w.cfg) = [k] := by
        apply List.filter_eq_self.2
        intro j hj
        rw [List.mem_singleton.1 hj]
        simp only [Unset, h, hv, noneText, decide_true]
      rw [hu]
      have := asks_ask_save ans k w
      unfold Asks at this ⊢
      rw [e]; exact this
    · have e : stepDirect ans k w = (w, none) := by unfold stepDirect; rw [h]; simp only; rw [if_neg hv]
      have hu : [k].filter (Unset w.cfg) = [] := by
        apply List.filter_eq_nil_iff.2
        intro j hj
        rw [List.mem_singleton.1 hj]
        simp only [Unset, h, decide_eq_true_eq]
        intro h'
        exact hv (Option.some.inj h')
      rw [hu]
      exact asks_nil (by rw [e])

theorem asks_stepsDirect (ans : Key → Str) : ∀ (ks : List Key), ks.Nodup → ∀ w : PWorld,
    Asks (stepsDirect ans ks) w (ks.filter (Unset w.cfg))
  | [], _, _ => asks_nil rfl
  | k :: ks, hn, w => by
    have hn' := List.nodup_cons.1 hn
    have e : (k :: ks).filter (Unset w.cfg) = [k].filter (Unset w.cfg) ++ ks.filter (Unset w.cfg) := by
      rw [← List.filter_append]; rfl
    rw [e]
    refine (asks_stepDirect ans k w).andThen (g := stepsDirect ans ks) fun _ => ?_
    have := asks_stepsDirect ans ks hn'.2 (stepDirect ans k w).1
    have e2 : ks.filter (Unset (stepDirect ans k w).1.cfg) = ks.filter (Unset w.cfg) := by
      apply List.filter_congr
      intro j hj
      have := touches_stepDirect ans k w j (by rintro hm; rw [List.mem_singleton.1 hm] at hj; exact hn'.1 hj)
      simp only [Unset, this]
    rw [e2] at this
    exact this

theorem missing_iff (c : Cfg) (k : Key) : getOrNone c k = noneText ↔ Missing c k := by
  unfold getOrNone Missing Unset noneText
  cases h : c k with
  | none => simp
  | some v => simp

theorem asks_stepTimeRef (ans : Key → Str) (k : Key) (w : PWorld) :
    Asks (stepTimeRef ans k) w (if NoTimeRef w.cfg then [k] else []) := by
  by_cases h : getOrNone w.cfg .timeRefId = noneText ∧ getOrNone w.cfg .timeRefFile = noneText
  · cases he : w.cfg .exifDiff with
    | none => exact asks_error (by unfold stepTimeRef; rw [if_pos h, he]) rfl
    | some v =>
      by_cases hv : v = noneText
      · have e : stepTimeRef ans k w = (askFor ans k w).andThen saveCfg := by
          unfold stepTimeRef; rw [if_pos h, he]; simp only; rw [if_pos hv]
        rw [if_pos ⟨(missing_iff _ _).1 h.1, (missing_iff _ _).1 h.2, by rw [Unset, he, hv]; rfl⟩]
        have := asks_ask_save ans k w
        unfold Asks at this ⊢
        rw [e]; exact this
      · have e : stepTimeRef ans k w = (w, none) := by
          unfold stepTimeRef; rw [if_pos h, he]; simp only; rw [if_neg hv]
        rw [if_neg (fun hn => hv (by have := hn.2.2; rw [Unset, he] at this; exact Option.some.inj this))]
        exact asks_nil (by rw [e])
  · have e : stepTimeRef ans k w = (w, none) := by unfold stepTimeRef; rw [if_neg h]
    rw [if_neg (fun hn => h ⟨(missing_iff _ _).2 hn.1, (missing_iff _ _).2 hn.2.1⟩)]
    exact asks_nil (by rw [e])

theorem asks_storeOffset (env : PEnv) (p : Str) (w : PWorld) : (storeOffset env p w).1.asked = w.asked := by
  unfold storeOffset
  split
  · rfl
  · split
    · rfl
    · split
      · unfold PRes.andThen
        split
        · split
          · exact setKey_asked _ _ _
          · split
            · exact setKey_asked _ _ _
            · rw [setKey_asked, setKey_asked]
        · exact setKey_asked _ _ _
      · rfl

theorem asks_askClock (ans : Key → Str) (w : PWorld) :
    Asks (askClock ans) w (if Unset w.cfg .timeRefTime then [.timeRefTime] else []) := by
  cases h : w.cfg .timeRefTime with
  | none => exact asks_error (by unfold askClock; rw [h]) rfl
  | some v =>
    by_cases hv : v = noneText
    · rw [if_pos (by rw [Unset, h, hv]; rfl)]
      have e : askClock ans w = askFor ans .timeRefTime w := by unfold askClock; rw [h]; simp only; rw [if_pos hv]
      have := asks_askFor ans .timeRefTime w
      unfold Asks at this ⊢
      rw [e]; exact this
    · rw [if_neg (fun hu => hv (by rw [Unset, h] at hu; exact Option.some.inj hu))]
      have e : askClock ans w = (w, none) := by unfold askClock; rw [h]; simp only; rw [if_neg hv]
      exact asks_nil (by rw [e])

theorem asks_timeDiff (env : PEnv) (ans : Key → Str) (w : PWorld) :
    Asks (timeDiff env ans) w (if Unset w.cfg .timeRefTime then [.timeRefTime] else []) := by
  cases h : timeRefPath env w.cfg with
  | error e => exact asks_error (by unfold timeDiff; rw [h]) rfl
  | ok p =>
    have e : timeDiff env ans w = (askClock ans w).andThen (storeOffset env p) := by unfold timeDiff; rw [h]
    have := (asks_askClock ans w).andThen (g := storeOffset env p) (M := []) (fun _ => asks_nil (asks_storeOffset _ _ _))
    rw [List.append_nil] at this
    unfold Asks at this ⊢
    rw [e]; exact this

theorem asks_stepOffset (env : PEnv) (ans : Key → Str) (w : PWorld) :
    Asks (stepOffset env ans) w (if Unset w.cfg .exifDiff ∧ Unset w.cfg .timeRefTime then [.timeRefTime] else []) := by
  cases h : w.cfg .exifDiff with
  | none => exact asks_error (by unfold stepOffset; rw [h]) rfl
  | some v =>
    by_cases hv : v = noneText
    · have hu : Unset w.cfg .exifDiff := by rw [Unset, h, hv]; rfl
      have e : stepOffset env ans w = (timeDiff env ans w).andThen saveCfg := by
        unfold stepOffset; rw [h]; simp only; rw [if_pos hv]
      have := (asks_timeDiff env ans w).andThen (g := saveCfg) (M := []) (fun _ => asks_nil rfl)
      rw [List.append_nil] at this
      simp only [hu, true_and]
      unfold Asks at this ⊢
      rw [e]; exact this
    · rw [if_neg (fun hu => hv (by have := hu.1; rw [Unset, h] at this; exact Option.some.inj this))]
      have e : stepOffset env ans w = (w, none) := by unfold stepOffset; rw [h]; simp only; rw [if_neg hv]
      exact asks_nil (by rw [e])

/-- What the question for the id does to the later conditions. -/
theorem stepTimeRef_value (ans : Key → Str) (k : Key) (w : PWorld) (h : (stepTimeRef ans k w).2 = none) :
    (stepTimeRef ans k w).1.cfg k = if NoTimeRef w.cfg then some (ans k) else w.cfg k := by
  by_cases hg : getOrNone w.cfg .timeRefId = noneText ∧ getOrNone w.cfg .timeRefFile = noneText
  · cases he : w.cfg .exifDiff with
    | none => rw [stepTimeRef, if_pos hg, he] at h; cases h
    | some v =>
      by_cases hv : v = noneText
      · rw [if_pos ⟨(missing_iff _ _).1 hg.1, (missing_iff _ _).1 hg.2, by rw [Unset, he, hv]; rfl⟩]
        rw [stepTimeRef, if_pos hg, he] at h ⊢
        simp only [if_pos hv] at h ⊢
        by_cases hp : percentOk (ans k) = true
        · simp [PRes.andThen, askFor, setKey, hp, saveCfg]
        · simp [PRes.andThen, askFor, setKey, hp] at h
      · rw [if_neg (fun hn => hv (by have := hn.2.2; rw [Unset, he] at this; exact Option.some.inj this))]
        rw [stepTimeRef, if_pos hg, he]; simp only [if_neg hv]
  · rw [if_neg (fun hn => hg ⟨(missing_iff _ _).2 hn.1, (missing_iff _ _).2 hn.2.1⟩), stepTimeRef, if_neg hg]

/-- **C56.** Whatever the configuration, the answers and the images are: the questions asked are an initial part of the
expected ones, and exactly the expected ones in that order unless the program stops with an exception. -/
theorem C56_asked (env : PEnv) (ans : Key → Str) (c f : Cfg) :
    (requestConfig env ans ⟨c, f, []⟩).1.asked <+: questions c ans ∧
    ((requestConfig env ans ⟨c, f, []⟩).2 = none → (requestConfig env ans ⟨c, f, []⟩).1.asked = questions c ans) := by
  have key : Asks (requestConfig env ans) ⟨c, f, []⟩ (questions c ans) := by
    have h1 := asks_stepsDirect ans [.imgDir, .imgName] (by decide) ⟨c, f, []⟩
    unfold questions
    simp only [List.append_assoc]
    unfold requestConfig
    refine h1.andThen fun r1 => ?_
    generalize hw1 : (stepsDirect ans [.imgDir, .imgName] ⟨c, f, []⟩).1 = w1
    have c1 : ∀ k, k ≠ .imgDir → k ≠ .imgName → w1.cfg k = c k := by
      intro k k1 k2
      rw [← hw1]
      exact touches_stepsDirect ans _ _ k (by simp [k1, k2])
    have n1 : NoTimeRef w1.cfg ↔ NoTimeRef c := by
      unfold NoTimeRef Missing Unset
      rw [c1 .timeRefId (by decide) (by decide), c1 .timeRefFile (by decide) (by decide), c1 .exifDiff (by decide) (by decide)]
    have h2 := asks_stepTimeRef ans .timeRefId w1
    simp only [n1] at h2
    refine h2.andThen fun r2 => ?_
    have v2 := stepTimeRef_value ans .timeRefId w1 r2
    have t2 := touches_stepTimeRef ans .timeRefId w1
    generalize (stepTimeRef ans .timeRefId w1).1 = w2 at v2 t2 ⊢
    have c2 : ∀ k, k ≠ .timeRefId → w2.cfg k = w1.cfg k := fun k hk => t2 k (by simpa using hk)
    have n2 : NoTimeRef w2.cfg ↔ NoTimeRef c ∧ ans .timeRefId = "None".toList := by
      by_cases hn : NoTimeRef w1.cfg
      · rw [if_pos hn] at v2
        have hn' := n1.1 hn
        constructor
        · intro hh
          refine ⟨hn', ?_⟩
          have := hh.1
          rw [Missing, Unset, v2] at this
          simpa using this
        · intro hh
          refine ⟨?_, ?_, ?_⟩
          · rw [Missing, Unset, v2, hh.2]; simp
          · rw [Missing, Unset, c2 .timeRefFile (by decide)]; exact hn.2.1
          · rw [Unset, c2 .exifDiff (by decide)]; exact hn.2.2
      · rw [if_neg hn] at v2
        have e : NoTimeRef w2.cfg ↔ NoTimeRef w1.cfg := by
          unfold NoTimeRef Missing Unset
          rw [v2, c2 .timeRefFile (by decide), c2 .exifDiff (by decide)]
        exact ⟨fun hh => absurd (e.1 hh) hn, fun hh => absurd (n1.2 hh.1) hn⟩
    have h3 := asks_stepTimeRef ans .timeRefFile w2
    simp only [n2] at h3
    refine h3.andThen fun r3 => ?_
    have t3 := touches_stepTimeRef ans .timeRefFile w2
    generalize (stepTimeRef ans .timeRefFile w2).1 = w3 at t3 ⊢
    have c3 : ∀ k, k ≠ .timeRefId → k ≠ .timeRefFile → k ≠ .imgDir → k ≠ .imgName → w3.cfg k = c k := by
      intro k k1 k2 k3 k4
      rw [t3 k (by simpa using k2), c2 k k1, c1 k k3 k4]
    have h4 := asks_stepOffset env ans w3
    have u3 : (Unset w3.cfg .exifDiff ∧ Unset w3.cfg .timeRefTime) ↔ (Unset c .exifDiff ∧ Unset c .timeRefTime) := by
      unfold Unset
      rw [c3 .exifDiff (by decide) (by decide) (by decide) (by decide), c3 .timeRefTime (by decide) (by decide) (by decide) (by decide)]
    simp only [u3] at h4
    refine h4.andThen fun r4 => ?_
    have t4 := touches_stepOffset env ans w3
    generalize (stepOffset env ans w3).1 = w4 at t4 ⊢
    have h5 := asks_stepsDirect ans lateKeys (by decide) w4
    have e5 : lateKeys.filter (Unset w4.cfg) = lateKeys.filter (Unset c) := by
      apply List.filter_congr
      intro k hk
      have hk' : k ≠ .timeRefId ∧ k ≠ .timeRefFile ∧ k ≠ .imgDir ∧ k ≠ .imgName ∧ k ≠ .timeRefTime ∧ k ≠ .date ∧ k ≠ .exifDiff := by
        revert hk; cases k <;> decide
      have : w4.cfg k = c k := by rw [t4 k (by simp [hk'.2.2.2.2]), c3 k hk'.1 hk'.2.1 hk'.2.2.1 hk'.2.2.2.1]
      simp only [Unset, this]
    rw [e5] at h5
    exact h5
  obtain ⟨l, h1, h2, h3⟩ := key
  rw [List.nil_append] at h1
  rw [h1]
  exact ⟨h2, h3⟩

/-! ### Parameters that are set -/

/-- Options that are set (other than the date) keep their value in memory and, if they have it there, in the file. -/
def KeepsAt (f : PWorld → PRes) (w : PWorld) : Prop :=
  ∀ k v, k ≠ .date → v ≠ "None".toList → w.cfg k = some v →
    (f w).1.cfg k = some v ∧ (w.file k = some v → (f w).1.file k = some v)

theorem KeepsAt.andThen {f g : PWorld → PRes} {w : PWorld} (hf : KeepsAt f w) (hg : (f w).2 = none → KeepsAt g (f w).1) :
    KeepsAt (fun w => (f w).andThen g) w := by
  intro k v hk hv hc
  obtain ⟨h1, h2⟩ := hf k v hk hv hc
  simp only
  cases h : (f w).2 with
  | some e => rw [andThen_error g h]; exact ⟨h1, h2⟩
  | none =>
    rw [andThen_ok g h]
    obtain ⟨g1, g2⟩ := hg h k v hk hv h1
    exact ⟨g1, fun hx => g2 (h2 hx)⟩

theorem keeps_same {f : PWorld → PRes} {w : PWorld} (h : (f w).1 = w) : KeepsAt f w := by
  intro k v _ _ hc; rw [h]; exact ⟨hc, id⟩

theorem keeps_save (w : PWorld) : KeepsAt saveCfg w := fun _ _ _ _ hc => ⟨hc, fun _ => hc⟩

theorem keeps_setKey (k : Key) (x : Str) (w : PWorld) (h : k = .date ∨ Missing w.cfg k) : KeepsAt (setKey k x) w := by
  intro j v hj hv hc
  have hjk : j ≠ k := by
    rintro rfl
    rcases h with h | h | h
    · exact hj h
    · rw [h] at hc; cases hc
    · rw [h] at hc; exact hv (Option.some.inj hc).symm
  unfold setKey
  split
  · simp only; rw [if_neg hjk]; exact ⟨hc, id⟩
  · exact ⟨hc, id⟩

theorem keeps_askFor (ans : Key → Str) (k : Key) (w : PWorld) (h : Missing w.cfg k) : KeepsAt (askFor ans k) w := by
  intro j v hj hv hc
  exact keeps_setKey k (ans k) { w with asked := w.asked ++ [k] } (.inr h) j v hj hv hc

theorem keeps_ask_save (ans : Key → Str) (k : Key) (w : PWorld) (h : Missing w.cfg k) :
    KeepsAt (fun w => (askFor ans k w).andThen saveCfg) w := (keeps_askFor ans k w h).andThen fun _ => keeps_save _

theorem KeepsAt.congr {f g : PWorld → PRes} {w : PWorld} (h : f w = g w) (hg : KeepsAt g w) : KeepsAt f w := by
  intro k v a b c; rw [h]; exact hg k v a b c

theorem keeps_stepDirect (ans : Key → Str) (k : Key) (w : PWorld) : KeepsAt (stepDirect ans k) w := by
  cases h : w.cfg k with
  | none => exact keeps_same (by unfold stepDirect; rw [h])
  | some v =>
    by_cases hv : v = noneText
    · refine KeepsAt.congr ?_ (keeps_ask_save ans k w (.inr (by rw [Unset, h, hv]; rfl)))
      unfold stepDirect; rw [h]; simp only; rw [if_pos hv]
    · exact keeps_same (by unfold stepDirect; rw [h]; simp only; rw [if_neg hv])

theorem keeps_stepsDirect (ans : Key → Str) : ∀ (ks : List Key) (w : PWorld), KeepsAt (stepsDirect ans ks) w
  | [], _ => keeps_same rfl
  | k :: ks, w => (keeps_stepDirect ans k w).andThen fun _ => keeps_stepsDirect ans ks _

theorem keeps_stepTimeRef (ans : Key → Str) (k : Key) (hk : k = .timeRefId ∨ k = .timeRefFile) (w : PWorld) :
    KeepsAt (stepTimeRef ans k) w := by
  by_cases h : getOrNone w.cfg .timeRefId = noneText ∧ getOrNone w.cfg .timeRefFile = noneText
  · have hm : Missing w.cfg k := by
      rcases hk with rfl | rfl
      · exact (missing_iff _ _).1 h.1
      · exact (missing_iff _ _).1 h.2
    cases he : w.cfg .exifDiff with
    | none => exact keeps_same (by unfold stepTimeRef; rw [if_pos h, he])
    | some v =>
      by_cases hv : v = noneText
      · refine KeepsAt.congr ?_ (keeps_ask_save ans k w hm)
        unfold stepTimeRef; rw [if_pos h, he]; simp only; rw [if_pos hv]
      · exact keeps_same (by unfold stepTimeRef; rw [if_pos h, he]; simp only; rw [if_neg hv])
  · exact keeps_same (by unfold stepTimeRef; rw [if_neg h])

theorem keeps_askClock (ans : Key → Str) (w : PWorld) : KeepsAt (askClock ans) w := by
  cases h : w.cfg .timeRefTime with
  | none => exact keeps_same (by unfold askClock; rw [h])
  | some v =>
    by_cases hv : v = noneText
    · refine KeepsAt.congr ?_ (keeps_askFor ans .timeRefTime w (.inr (by rw [Unset, h, hv]; rfl)))
      unfold askClock; rw [h]; simp only; rw [if_pos hv]
    · exact keeps_same (by unfold askClock; rw [h]; simp only; rw [if_neg hv])

theorem keeps_storeOffset (env : PEnv) (p : Str) (w : PWorld) (hu : Unset w.cfg .exifDiff) : KeepsAt (storeOffset env p) w := by
  cases ht : w.cfg .timeRefTime with
  | none => exact keeps_same (by unfold storeOffset; rw [ht])
  | some time =>
    cases hx : env.exif p with
    | error e => exact keeps_same (by unfold storeOffset; rw [ht]; simp only; rw [hx])
    | ok entry =>
      by_cases hs : ∃ d t, splitChar ' ' entry = [d, t]
      · obtain ⟨d, t, hs⟩ := hs
        refine KeepsAt.congr (g := fun w => (setKey .date d w).andThen fun w =>
          match getDatetimeFromStr d t with
          | .error e => (w, some e)
          | .ok img => match getDatetimeFromStr d time with
            | .error e => (w, some e)
            | .ok real => setKey .exifDiff (intStr (img - real)) w)
          (by unfold storeOffset; rw [ht]; simp only; rw [hx]; simp only; rw [hs]; rfl) ?_
        refine (keeps_setKey .date d w (.inl rfl)).andThen fun _ => ?_
        have hu' : Unset (setKey .date d w).1.cfg .exifDiff := by
          rw [Unset, touches_setKey .date d w .exifDiff (by decide)]; exact hu
        generalize (setKey .date d w).1 = w1 at hu'
        cases h1 : getDatetimeFromStr d t with
        | error e => exact keeps_same rfl
        | ok img =>
          cases h2 : getDatetimeFromStr d time with
          | error e => exact keeps_same rfl
          | ok real => exact keeps_setKey .exifDiff _ w1 (.inr (.inr hu'))
      · refine keeps_same ?_
        unfold storeOffset
        rw [ht]; simp only; rw [hx]; simp only
        split
        · rename_i d t hs'; exact absurd ⟨d, t, hs'⟩ hs
        · rfl

theorem keeps_stepOffset (env : PEnv) (ans : Key → Str) (w : PWorld) : KeepsAt (stepOffset env ans) w := by
  cases h : w.cfg .exifDiff with
  | none => exact keeps_same (by unfold stepOffset; rw [h])
  | some v =>
    by_cases hv : v = noneText
    · have hu : Unset w.cfg .exifDiff := by rw [Unset, h, hv]; rfl
      refine KeepsAt.congr (g := fun w => (timeDiff env ans w).andThen saveCfg)
        (by unfold stepOffset; rw [h]; simp only; rw [if_pos hv]) ?_
      refine KeepsAt.andThen ?_ fun _ => keeps_save _
      cases hp : timeRefPath env w.cfg with
      | error e => exact keeps_same (by unfold timeDiff; rw [hp])
      | ok p =>
        refine KeepsAt.congr (g := fun w => (askClock ans w).andThen (storeOffset env p)) (by unfold timeDiff; rw [hp]) ?_
        refine (keeps_askClock ans w).andThen fun _ => keeps_storeOffset env p _ ?_
        rw [Unset, touches_askClock ans w .exifDiff (by decide)]
        exact hu
    · exact keeps_same (by unfold stepOffset; rw [h]; simp only; rw [if_neg hv])

/-- **C56**, values: every parameter that was set, except the date, has the same value after the dialogue, in memory and in
the file, whatever the answers are and whether or not the program stops with an exception. The date is overwritten:
`C56_date_false`. -/
theorem C56_kept_partial (env : PEnv) (ans : Key → Str) (c : Cfg) (k : Key) (hk : k ≠ .date) (v : Str)
    (hv : v ≠ "None".toList) (hc : c k = some v) :
    (requestConfig env ans ⟨c, c, []⟩).1.cfg k = some v ∧ (requestConfig env ans ⟨c, c, []⟩).1.file k = some v := by
  have : KeepsAt (requestConfig env ans) ⟨c, c, []⟩ := by
    unfold requestConfig
    refine (keeps_stepsDirect ans _ _).andThen fun _ => ?_
    refine (keeps_stepTimeRef ans _ (.inl rfl) _).andThen fun _ => ?_
    refine (keeps_stepTimeRef ans _ (.inr rfl) _).andThen fun _ => ?_
    exact (keeps_stepOffset env ans _).andThen fun _ => keeps_stepsDirect ans _ _
  obtain ⟨h1, h2⟩ := this k v hk hv hc
  exact ⟨h1, h2 hc⟩

/-! ### Answers are saved -/

/-- The answers given are in memory and in the file, except the time on the clock and texts that cannot be stored. -/
def Saved (ans : Key → Str) (w : PWorld) : Prop :=
  ∀ k ∈ w.asked, k ≠ .date ∧ k ≠ .exifDiff ∧
    (k ≠ .timeRefTime → percentOk (ans k) = true → w.cfg k = some (ans k) ∧ w.file k = some (ans k))

theorem saved_andThen {ans : Key → Str} {r : PRes} {g : PWorld → PRes} (h : Saved ans r.1)
    (hg : Saved ans r.1 → Saved ans (g r.1).1) : Saved ans (r.andThen g).1 := by
  cases hr : r.2 with
  | some e => rw [andThen_error g hr]; exact h
  | none => rw [andThen_ok g hr]; exact hg h

theorem saved_ask_save {ans : Key → Str} {w : PWorld} (k : Key) (hk : k ≠ .date ∧ k ≠ .exifDiff) (h : Saved ans w) :
    Saved ans ((askFor ans k w).andThen saveCfg).1 := by
  intro j hj
  by_cases hp : percentOk (ans k) = true
  · have e : (askFor ans k w).andThen saveCfg = (⟨fun j => if j = k then some (ans k) else w.cfg j,
        fun j => if j = k then some (ans k) else w.cfg j, w.asked ++ [k]⟩, none) := by
      simp [PRes.andThen, askFor, setKey, hp, saveCfg]
    rw [e] at hj ⊢
    simp only at hj ⊢
    by_cases hjk : j = k
    · subst hjk; exact ⟨hk.1, hk.2, fun _ _ => by simp⟩
    · simp only [if_neg hjk]
      have hm : j ∈ w.asked := by simpa [hjk] using hj
      obtain ⟨a, b, c⟩ := h j hm
      exact ⟨a, b, fun x y => ⟨(c x y).1, (c x y).1⟩⟩
  · have e : (askFor ans k w).andThen saveCfg = (⟨w.cfg, w.file, w.asked ++ [k]⟩, some .valueError) := by
      simp [PRes.andThen, askFor, setKey, hp]
    rw [e] at hj ⊢
    simp only at hj ⊢
    by_cases hjk : j = k
    · subst hjk; exact ⟨hk.1, hk.2, fun _ hy => absurd hy hp⟩
    · exact h j (by simpa [hjk] using hj)

theorem saved_stepDirect {ans : Key → Str} {w : PWorld} (k : Key) (hk : k ≠ .date ∧ k ≠ .exifDiff) (h : Saved ans w) :
    Saved ans (stepDirect ans k w).1 := by
  unfold stepDirect
  split
  · exact h
  · split
    · exact saved_ask_save k hk h
    · exact h

theorem saved_stepsDirect {ans : Key → Str} : ∀ (ks : List Key), (∀ k ∈ ks, k ≠ .date ∧ k ≠ .exifDiff) → ∀ w : PWorld,
    Saved ans w → Saved ans (stepsDirect ans ks w).1
  | [], _, _, h => h
  | k :: ks, hk, w, h =>
    saved_andThen (saved_stepDirect k (hk k (by simp)) h)
      (saved_stepsDirect ks (fun j hj => hk j (List.mem_cons_of_mem _ hj)) _)

theorem saved_stepTimeRef {ans : Key → Str} {w : PWorld} (k : Key) (hk : k ≠ .date ∧ k ≠ .exifDiff) (h : Saved ans w) :
    Saved ans (stepTimeRef ans k w).1 := by
  unfold stepTimeRef
  split
  · split
    · exact h
    · split
      · exact saved_ask_save k hk h
      · exact h
  · exact h

/-- The file is not written by `f`. -/
theorem setKey_file (k : Key) (v : Str) (w : PWorld) : (setKey k v w).1.file = w.file := by unfold setKey; split <;> rfl

theorem andThen_file {r : PRes} {g : PWorld → PRes} {x : Cfg} (h : r.1.file = x) (hg : (g r.1).1.file = x) :
    (r.andThen g).1.file = x := by
  cases hr : r.2 with
  | some e => rw [andThen_error g hr]; exact h
  | none => rw [andThen_ok g hr]; exact hg

theorem timeDiff_file (env : PEnv) (ans : Key → Str) (w : PWorld) : (timeDiff env ans w).1.file = w.file := by
  have hs : ∀ p w, (storeOffset env p w).1.file = w.file := by
    intro p w
    unfold storeOffset
    split
    · rfl
    · split
      · rfl
      · split
        · refine andThen_file (setKey_file _ _ _) ?_
          split
          · exact setKey_file _ _ _
          · split
            · exact setKey_file _ _ _
            · rw [setKey_file, setKey_file]
        · rfl
  have hc : ∀ w, (askClock ans w).1.file = w.file := by
    intro w
    unfold askClock
    split
    · rfl
    · split
      · unfold askFor; rw [setKey_file]
      · rfl
  unfold timeDiff
  split
  · rfl
  · exact andThen_file (hc w) (by rw [hs, hc])

theorem saved_stepOffset {ans : Key → Str} {w : PWorld} (env : PEnv) (h : Saved ans w) :
    Saved ans (stepOffset env ans w).1 := by
  have ht : Saved ans (timeDiff env ans w).1 := by
    intro k hk
    obtain ⟨l, h1, h2, _⟩ := asks_timeDiff env ans w
    rw [h1, List.mem_append] at hk
    rcases hk with hk | hk
    · obtain ⟨a, b, c⟩ := h k hk
      refine ⟨a, b, fun x y => ?_⟩
      rw [touches_timeDiff env ans w k (by simp [a, b, x]), timeDiff_file]
      exact c x y
    · have := h2.subset hk
      have : k = .timeRefTime := by
        split at this
        · simpa using this
        · simp at this
      subst this
      exact ⟨by decide, by decide, fun x => absurd rfl x⟩
  unfold stepOffset
  split
  · exact h
  · split
    · refine saved_andThen ht fun hs k hk => ?_
      obtain ⟨a, b, c⟩ := hs k hk
      exact ⟨a, b, fun x y => ⟨(c x y).1, (c x y).1⟩⟩
    · exact h

/-- **C56**, saving: every answer that can be stored is in the file afterwards, even if the program stops with an exception
later. Missing: the time on the clock, which is lost if the image cannot be read, `C56_clock_false`. -/
theorem C56_saved_partial (env : PEnv) (ans : Key → Str) (c : Cfg) :
    ∀ k ∈ (requestConfig env ans ⟨c, c, []⟩).1.asked, k ≠ .timeRefTime → '%' ∉ ans k →
      (requestConfig env ans ⟨c, c, []⟩).1.file k = some (ans k) := by
  have h : Saved ans (requestConfig env ans ⟨c, c, []⟩).1 := by
    unfold requestConfig
    refine saved_andThen (saved_stepsDirect _ (by simp) _ (fun k hk => by simp at hk)) fun h1 => ?_
    refine saved_andThen (saved_stepTimeRef _ (by decide) h1) fun h2 => ?_
    refine saved_andThen (saved_stepTimeRef _ (by decide) h2) fun h3 => ?_
    refine saved_andThen (saved_stepOffset env h3) fun h4 => ?_
    exact saved_stepsDirect _ (by simp [lateKeys]) _ h4
  intro k hk ht hp
  exact ((h k hk).2.2 ht (C55_no_percent _ hp)).2

/-! ### Runs without exception -/

theorem stepDirect_value (ans : Key → Str) (k : Key) (w : PWorld) (h : (stepDirect ans k w).2 = none) :
    ∃ v, w.cfg k = some v ∧ (stepDirect ans k w).1.cfg k = some (if v = "None".toList then ans k else v) := by
  unfold stepDirect at h ⊢
  cases hc : w.cfg k with
  | none => rw [hc] at h; cases h
  | some v =>
    rw [hc] at h
    refine ⟨v, rfl, ?_⟩
    simp only at h ⊢
    by_cases hv : v = noneText
    · have hv' : v = "None".toList := hv
      rw [if_pos hv] at h ⊢
      rw [if_pos hv']
      by_cases hp : percentOk (ans k) = true
      · simp [PRes.andThen, askFor, setKey, hp, saveCfg]
      · simp [PRes.andThen, askFor, setKey, hp] at h
    · have hv' : ¬ v = "None".toList := hv
      rw [if_neg hv, if_neg hv']; exact hc

theorem stepsDirect_value (ans : Key → Str) : ∀ (ks : List Key), ks.Nodup → ∀ w : PWorld, (stepsDirect ans ks w).2 = none →
    ∀ k ∈ ks, ∃ v, w.cfg k = some v ∧ (stepsDirect ans ks w).1.cfg k = some (if v = "None".toList then ans k else v)
  | [], _, _, _, _, hk => by simp at hk
  | k :: ks, hn, w, h, j, hj => by
    have hn' := List.nodup_cons.1 hn
    unfold stepsDirect at h ⊢
    cases h1 : (stepDirect ans k w).2 with
    | some e => rw [andThen_error _ h1, h1] at h; cases h
    | none =>
      rw [andThen_ok _ h1] at h ⊢
      by_cases hjk : j = k
      · subst hjk
        obtain ⟨v, a, b⟩ := stepDirect_value ans j w h1
        exact ⟨v, a, by rw [touches_stepsDirect ans ks _ j hn'.1, b]⟩
      · obtain ⟨v, a, b⟩ := stepsDirect_value ans ks hn'.2 _ h j (by simpa [hjk] using hj)
        refine ⟨v, ?_, b⟩
        rw [← a]
        exact (touches_stepDirect ans k w j (by simpa using hjk)).symm

/-- A successful run, cut into its parts. -/
theorem requestConfig_parts {env : PEnv} {ans : Key → Str} {w : PWorld} (h : (requestConfig env ans w).2 = none) :
    ∃ w1 w2 w3 w4, stepsDirect ans [.imgDir, .imgName] w = (w1, none) ∧ stepTimeRef ans .timeRefId w1 = (w2, none) ∧
      stepTimeRef ans .timeRefFile w2 = (w3, none) ∧ stepOffset env ans w3 = (w4, none) ∧
      (stepsDirect ans lateKeys w4).2 = none ∧ requestConfig env ans w = stepsDirect ans lateKeys w4 := by
  unfold requestConfig at h ⊢
  cases h1 : (stepsDirect ans [.imgDir, .imgName] w).2 with
  | some e => rw [andThen_error _ h1, h1] at h; cases h
  | none =>
    rw [andThen_ok _ h1] at h ⊢
    cases h2 : (stepTimeRef ans .timeRefId (stepsDirect ans [.imgDir, .imgName] w).1).2 with
    | some e => rw [andThen_error _ h2, h2] at h; cases h
    | none =>
      rw [andThen_ok _ h2] at h ⊢
      generalize hw2 : stepTimeRef ans .timeRefId (stepsDirect ans [.imgDir, .imgName] w).1 = r2 at h h2 ⊢
      cases h3 : (stepTimeRef ans .timeRefFile r2.1).2 with
      | some e => rw [andThen_error _ h3, h3] at h; cases h
      | none =>
        rw [andThen_ok _ h3] at h ⊢
        generalize hw3 : stepTimeRef ans .timeRefFile r2.1 = r3 at h h3 ⊢
        cases h4 : (stepOffset env ans r3.1).2 with
        | some e => rw [andThen_error _ h4, h4] at h; cases h
        | none =>
          rw [andThen_ok _ h4] at h ⊢
          refine ⟨_, r2.1, r3.1, (stepOffset env ans r3.1).1, Prod.ext rfl h1, ?_, ?_, Prod.ext rfl h4, h, rfl⟩
          · rw [hw2]; exact Prod.ext rfl h2
          · rw [hw3]; exact Prod.ext rfl h3

/-- What a successful determination of the offset has done. -/
theorem timeDiff_ok {env : PEnv} {ans : Key → Str} {w : PWorld} (h : (timeDiff env ans w).2 = none) :
    ∃ p entry d t time img real, timeRefPath env w.cfg = .ok p ∧ env.exif p = .ok entry ∧ splitChar ' ' entry = [d, t] ∧
      (∃ v, w.cfg .timeRefTime = some v ∧ time = if v = "None".toList then ans .timeRefTime else v) ∧
      getDatetimeFromStr d t = .ok img ∧ getDatetimeFromStr d time = .ok real ∧
      (timeDiff env ans w).1.cfg .timeRefTime = some time ∧ (timeDiff env ans w).1.cfg .date = some d ∧
      (timeDiff env ans w).1.cfg .exifDiff = some (intStr (img - real)) := by
  unfold timeDiff at h ⊢
  cases hp : timeRefPath env w.cfg with
  | error e => rw [hp] at h; cases h
  | ok p =>
    rw [hp] at h
    simp only at h ⊢
    cases h1 : (askClock ans w).2 with
    | some e => rw [andThen_error _ h1, h1] at h; cases h
    | none =>
      rw [andThen_ok _ h1] at h ⊢
      have hclock : ∃ v, w.cfg .timeRefTime = some v ∧
          (askClock ans w).1.cfg .timeRefTime = some (if v = "None".toList then ans .timeRefTime else v) := by
        unfold askClock at h1 ⊢
        cases hc : w.cfg .timeRefTime with
        | none => rw [hc] at h1; cases h1
        | some v =>
          rw [hc] at h1
          simp only at h1 ⊢
          refine ⟨v, rfl, ?_⟩
          by_cases hv : v = noneText
          · have hv' : v = "None".toList := hv
            rw [if_pos hv] at h1 ⊢
            rw [if_pos hv']
            by_cases hq : percentOk (ans .timeRefTime) = true
            · simp [askFor, setKey, hq]
            · simp [askFor, setKey, hq] at h1
          · have hv' : ¬ v = "None".toList := hv
            rw [if_neg hv, if_neg hv']; exact hc
      obtain ⟨v, hv, ht⟩ := hclock
      generalize (askClock ans w).1 = w1 at h ht
      generalize htime : (if v = "None".toList then ans .timeRefTime else v) = time at ht
      unfold storeOffset at h ⊢
      rw [ht] at h ⊢
      simp only at h ⊢
      cases hx : env.exif p with
      | error e => rw [hx] at h; cases h
      | ok entry =>
        rw [hx] at h
        simp only at h ⊢
        by_cases hs : ∃ d t, splitChar ' ' entry = [d, t]
        · obtain ⟨d, t, hs⟩ := hs
          rw [hs] at h ⊢
          simp only at h ⊢
          cases h2 : (setKey .date d w1).2 with
          | some e => rw [andThen_error _ h2, h2] at h; cases h
          | none =>
            rw [andThen_ok _ h2] at h ⊢
            have hd : (setKey .date d w1).1.cfg .date = some d := by
              unfold setKey at h2 ⊢; split
              · simp
              · rename_i hq; rw [if_neg hq] at h2; cases h2
            have ht1 : (setKey .date d w1).1.cfg .timeRefTime = some time := by
              rw [touches_setKey .date d w1 _ (by decide)]; exact ht
            generalize (setKey .date d w1).1 = w2 at h hd ht1
            cases hi : getDatetimeFromStr d t with
            | error e => rw [hi] at h; cases h
            | ok img =>
              cases hr : getDatetimeFromStr d time with
              | error e => rw [hi, hr] at h; cases h
              | ok real =>
                rw [hi, hr] at h
                simp only at h ⊢
                refine ⟨p, entry, d, t, time, img, real, rfl, hx, hs, ⟨v, hv, htime.symm⟩, hi, hr, ?_, ?_, ?_⟩
                · rw [touches_setKey _ _ _ _ (by decide)]; exact ht1
                · rw [touches_setKey _ _ _ _ (by decide)]; exact hd
                · unfold setKey at h ⊢; split
                  · simp
                  · rename_i hq; rw [if_neg hq] at h; cases h
        · exfalso
          split at h
          · rename_i d t hs'; exact hs ⟨d, t, hs'⟩
          · cases h

/-- **C57.** If the offset was unset and the dialogue ends without exception, the time reference image is the file if one is
given, otherwise the image with the id given, and the offset stored is its EXIF time minus the time on the clock; the date
stored is that of the image. -/
theorem C57_offset (env : PEnv) (ans : Key → Str) (c : Cfg) (hu : Unset c .exifDiff)
    (h : (requestConfig env ans ⟨c, c, []⟩).2 = none) :
    ∃ (c' : Cfg) (p d t clock x : Str) (img real : Int), (requestConfig env ans ⟨c, c, []⟩).1.cfg = c' ∧
      ((∃ file, c' .timeRefFile = some file ∧ file ≠ "None".toList ∧ p = env.absPath file) ∨
        (Unset c' .timeRefFile ∧ ∃ id dir name, c' .timeRefId = some id ∧ id ≠ "None".toList ∧ c' .imgDir = some dir ∧
          c' .imgName = some name ∧ env.pathOfId dir name id = .ok p)) ∧
      env.exif p = .ok (d ++ ' ' :: t) ∧ getDatetimeFromStr d t = .ok img ∧
      c' .timeRefTime = some clock ∧ getDatetimeFromStr d clock = .ok real ∧
      c' .exifDiff = some x ∧ pyInt x = .ok (img - real) ∧ c' .date = some d := by
  obtain ⟨w1, w2, w3, w4, e1, e2, e3, e4, h5, e5⟩ := requestConfig_parts h
  have hu3 : w3.cfg .exifDiff = some "None".toList := by
    have a1 := touches_stepsDirect ans [.imgDir, .imgName] ⟨c, c, []⟩ .exifDiff (by decide)
    have a2 := touches_stepTimeRef ans .timeRefId w1 .exifDiff (by decide)
    have a3 := touches_stepTimeRef ans .timeRefFile w2 .exifDiff (by decide)
    rw [e1] at a1; rw [e2] at a2; rw [e3] at a3
    rw [a3, a2, a1]; exact hu
  have e4' : stepOffset env ans w3 = (timeDiff env ans w3).andThen saveCfg := by
    unfold stepOffset; rw [hu3]; simp only; rw [if_pos (show "None".toList = noneText from rfl)]
  rw [e4'] at e4
  have h4 : (timeDiff env ans w3).2 = none := by
    cases hq : (timeDiff env ans w3).2 with
    | none => rfl
    | some e => rw [andThen_error _ hq] at e4; rw [e4] at hq; cases hq
  rw [andThen_ok _ h4] at e4
  have ew4 : w4.cfg = (timeDiff env ans w3).1.cfg := by
    have : (saveCfg (timeDiff env ans w3).1).1 = w4 := by rw [e4]
    rw [← this]; rfl
  obtain ⟨p, entry, d, t, time, img, real, hp, hx, hs, _, hi, hr, g1, g2, g3⟩ := timeDiff_ok h4
  have late : ∀ k, k ∉ lateKeys → (requestConfig env ans ⟨c, c, []⟩).1.cfg k = w4.cfg k := by
    intro k hk; rw [e5]; exact touches_stepsDirect ans lateKeys w4 k hk
  have mid : ∀ k, k ∉ lateKeys → k ≠ .timeRefTime → k ≠ .date → k ≠ .exifDiff →
      (requestConfig env ans ⟨c, c, []⟩).1.cfg k = w3.cfg k := by
    intro k hk a b d
    rw [late k hk, ew4, touches_timeDiff env ans w3 k (by simp [a, b, d])]
  refine ⟨_, p, d, t, time, intStr (img - real), img, real, rfl, ?_, ?_, hi, ?_, hr, ?_, pyInt_intStr _, ?_⟩
  · rw [mid .timeRefFile (by decide) (by decide) (by decide) (by decide), mid .timeRefId (by decide) (by decide) (by decide) (by decide),
      mid .imgDir (by decide) (by decide) (by decide) (by decide), mid .imgName (by decide) (by decide) (by decide) (by decide),
      Unset, mid .timeRefFile (by decide) (by decide) (by decide) (by decide)]
    unfold timeRefPath at hp
    cases hid : w3.cfg .timeRefId with
    | none => rw [hid] at hp; cases hp
    | some id =>
      cases hf : w3.cfg .timeRefFile with
      | none => rw [hid, hf] at hp; cases hp
      | some file =>
        rw [hid, hf] at hp
        simp only at hp
        by_cases h1 : id = noneText ∧ file = noneText
        · rw [if_pos h1] at hp; cases hp
        · rw [if_neg h1] at hp
          by_cases h2 : id = noneText
          · rw [if_pos h2] at hp
            refine .inl ⟨file, rfl, fun hh => h1 ⟨h2, hh⟩, (Except.ok.inj hp).symm⟩
          · rw [if_neg h2] at hp
            cases hdir : w3.cfg .imgDir with
            | none => rw [hdir] at hp; cases hp
            | some dir =>
              cases hname : w3.cfg .imgName with
              | none => rw [hdir, hname] at hp; cases hp
              | some name =>
                rw [hdir, hname] at hp
                simp only at hp
                cases hq : env.pathOfId dir name id with
                | error e => rw [hq] at hp; cases hp
                | ok q =>
                  rw [hq] at hp
                  simp only at hp
                  by_cases h3 : file = noneText
                  · rw [if_pos h3] at hp
                    exact .inr ⟨by rw [h3]; rfl, id, dir, name, rfl, h2, rfl, rfl, by rw [hq, Except.ok.inj hp]⟩
                  · rw [if_neg h3] at hp
                    exact .inl ⟨file, rfl, h3, (Except.ok.inj hp).symm⟩
  · have := joinChar_splitChar ' ' entry
    rw [hs] at this
    rw [hx, ← this]; rfl
  · rw [late _ (by decide), ew4, g1]
  · rw [late _ (by decide), ew4, g3]
  · rw [late _ (by decide), ew4, g2]

/-! ### The second run -/

/-- The parameters asked for one by one. -/
def plainKeys : List Key := [.imgDir, .imgName, .refImg, .maxLeds, .firstExp, .lastExp, .numArrays]

theorem intStr_ne_none (z : Int) : intStr z ≠ "None".toList := by
  intro h
  have : ∀ c ∈ intStr z, isDigit c = true ∨ c = '-' := by
    unfold intStr
    split
    · intro c hc
      rcases List.mem_cons.1 hc with rfl | hc
      · exact .inr rfl
      · exact .inl (natStr_isDigit _ c hc)
    · intro c hc; exact .inl (natStr_isDigit _ c hc)
  rw [h] at this
  have := this 'N' (by decide)
  revert this; decide

/-- Nothing happens if the plain parameters and the offset are set. -/
theorem stepsDirect_set (ans : Key → Str) (w : PWorld) : ∀ ks : List Key,
    (∀ k ∈ ks, ∃ v, w.cfg k = some v ∧ v ≠ "None".toList) → stepsDirect ans ks w = (w, none)
  | [], _ => rfl
  | k :: ks, h => by
    obtain ⟨v, hv, hn⟩ := h k (by simp)
    have e : stepDirect ans k w = (w, none) := by
      unfold stepDirect; rw [hv]; simp only; rw [if_neg (show ¬ v = noneText from hn)]
    rw [stepsDirect, e, andThen_ok _ rfl]
    exact stepsDirect_set ans w ks fun j hj => h j (List.mem_cons_of_mem _ hj)

theorem requestConfig_set (env : PEnv) (ans : Key → Str) (w : PWorld)
    (h : ∀ k ∈ plainKeys ++ [.exifDiff], ∃ v, w.cfg k = some v ∧ v ≠ "None".toList) : requestConfig env ans w = (w, none) := by
  obtain ⟨v, hv, hn⟩ := h .exifDiff (by decide)
  have hn' : ¬ v = noneText := hn
  have e2 : ∀ k, stepTimeRef ans k w = (w, none) := by
    intro k; unfold stepTimeRef
    split
    · rw [hv]; simp only; rw [if_neg hn']
    · rfl
  have e4 : stepOffset env ans w = (w, none) := by unfold stepOffset; rw [hv]; simp only; rw [if_neg hn']
  unfold requestConfig
  rw [stepsDirect_set ans w _ (fun k hk => h k (by revert hk; cases k <;> decide)), andThen_ok _ rfl]
  simp only
  rw [e2, andThen_ok _ rfl]
  simp only
  rw [e2, andThen_ok _ rfl]
  simp only
  rw [e4, andThen_ok _ rfl]
  exact stepsDirect_set ans w _ (fun k hk => h k (by revert hk; cases k <;> decide))

/-- Values after a run without exception. -/
theorem requestConfig_values {env : PEnv} {ans : Key → Str} {c f : Cfg} (h : (requestConfig env ans ⟨c, f, []⟩).2 = none) :
    (∀ k ∈ plainKeys, ∃ v, c k = some v ∧
      (requestConfig env ans ⟨c, f, []⟩).1.cfg k = some (if v = "None".toList then ans k else v)) ∧
    ∃ x, (requestConfig env ans ⟨c, f, []⟩).1.cfg .exifDiff = some x ∧ ((∃ z, x = intStr z) ∨ (c .exifDiff = some x ∧ x ≠ "None".toList)) := by
  obtain ⟨w1, w2, w3, w4, e1, e2, e3, e4, h5, e5⟩ := requestConfig_parts h
  have a1 := touches_stepsDirect ans [.imgDir, .imgName] ⟨c, f, []⟩
  have a2 := touches_stepTimeRef ans .timeRefId w1
  have a3 := touches_stepTimeRef ans .timeRefFile w2
  have a4 := touches_stepOffset env ans w3
  have a5 := touches_stepsDirect ans lateKeys w4
  rw [e1] at a1; rw [e2] at a2; rw [e3] at a3; rw [e4] at a4
  rw [e5]
  constructor
  · intro k hk
    by_cases hl : k ∈ lateKeys
    · obtain ⟨v, g1, g2⟩ := stepsDirect_value ans lateKeys (by decide) w4 h5 k hl
      refine ⟨v, ?_, g2⟩
      rw [← g1, a4 k (by revert hl; cases k <;> decide), a3 k (by revert hl; cases k <;> decide),
        a2 k (by revert hl; cases k <;> decide), a1 k (by revert hl; cases k <;> decide)]
    · have hm : k ∈ [Key.imgDir, Key.imgName] := by revert hk hl; cases k <;> decide
      obtain ⟨v, g1, g2⟩ := stepsDirect_value ans _ (by decide) ⟨c, f, []⟩ (by rw [e1]) k hm
      refine ⟨v, g1, ?_⟩
      rw [e1] at g2
      rw [a5 k hl, ← g2, a4 k (by revert hm; cases k <;> decide), a3 k (by revert hm; cases k <;> decide),
        a2 k (by revert hm; cases k <;> decide)]
  · rw [a5 .exifDiff (by decide)]
    have hc : w3.cfg .exifDiff = c .exifDiff := by
      rw [a3 .exifDiff (by decide), a2 .exifDiff (by decide), a1 .exifDiff (by decide)]
    unfold stepOffset at e4
    rw [hc] at e4
    cases hx : c .exifDiff with
    | none => rw [hx] at e4; cases e4
    | some v =>
      rw [hx] at e4
      simp only at e4
      by_cases hv : v = noneText
      · rw [if_pos hv] at e4
        have h4 : (timeDiff env ans w3).2 = none := by
          cases hq : (timeDiff env ans w3).2 with
          | none => rfl
          | some e => rw [andThen_error _ hq] at e4; rw [e4] at hq; cases hq
        rw [andThen_ok _ h4] at e4
        have ew4 : w4.cfg = (timeDiff env ans w3).1.cfg := by
          have : (saveCfg (timeDiff env ans w3).1).1 = w4 := by rw [e4]
          rw [← this]; rfl
        obtain ⟨_, _, _, _, _, img, real, _, _, _, _, _, _, _, _, g3⟩ := timeDiff_ok h4
        exact ⟨_, by rw [ew4, g3], .inl ⟨_, rfl⟩⟩
      · rw [if_neg hv] at e4
        have : w3 = w4 := (Prod.mk.inj e4).1
        exact ⟨v, by rw [← this, hc, hx], .inr ⟨rfl, hv⟩⟩

/-- **C56**, second run: after a run without exception the program, started again on the file, asks nothing and changes
nothing iff no answer to a plain question was the text `None` (up to white space around it). The configuration is one
that was loaded, so its values have no white space around them. -/
theorem C56_second_run (env env' : PEnv) (ans ans' : Key → Str) (c : Cfg) (hload : ∀ k v, c k = some v → strip v = v)
    (h : (requestConfig env ans ⟨c, c, []⟩).2 = none) :
    let c' := reloadCfg (requestConfig env ans ⟨c, c, []⟩).1.cfg
    requestConfig env' ans' ⟨c', c', []⟩ = (⟨c', c', []⟩, none) ↔
      ∀ k ∈ [Key.imgDir, .imgName, .refImg, .maxLeds, .firstExp, .lastExp, .numArrays], Unset c k →
        strip (ans k) ≠ "None".toList := by
  intro c'
  obtain ⟨hv, x, hx, hx'⟩ := requestConfig_values h
  have hval : ∀ k ∈ plainKeys, ∃ v, c k = some v ∧ c' k = some (if v = "None".toList then strip (ans k) else v) := by
    intro k hk
    obtain ⟨v, g1, g2⟩ := hv k hk
    refine ⟨v, g1, ?_⟩
    show ((requestConfig env ans ⟨c, c, []⟩).1.cfg k).map strip = _
    rw [g2, Option.map_some]
    split
    · rfl
    · rw [hload k v g1]
  constructor
  · intro hr k hk hu hs
    have hq := (C56_asked env' ans' c' c').2 (by rw [hr])
    rw [hr] at hq
    obtain ⟨v, g1, g2⟩ := hval k hk
    rw [Unset, g1] at hu
    rw [if_pos (Option.some.inj hu), hs] at g2
    have : k ∈ questions c' ans' := by
      unfold questions
      have hu' : Unset c' k := g2
      have : k ∈ [Key.imgDir, .imgName] ∨ k ∈ [Key.refImg, .maxLeds, .firstExp, .lastExp, .numArrays] := by
        revert hk; cases k <;> decide
      rcases this with hm | hm
      · simp only [List.mem_append, List.mem_filter, decide_eq_true_eq]
        exact .inl (.inl (.inl (.inl ⟨hm, hu'⟩)))
      · simp only [List.mem_append, List.mem_filter, decide_eq_true_eq]
        exact .inr ⟨hm, hu'⟩
    rw [← hq] at this
    simp at this
  · intro hs
    apply requestConfig_set
    intro k hk
    rcases List.mem_append.1 hk with hk | hk
    · obtain ⟨v, g1, g2⟩ := hval k hk
      refine ⟨_, g2, ?_⟩
      split
      · rename_i hn; exact hs k hk (by rw [Unset, g1, hn])
      · assumption
    · rw [List.mem_singleton.1 hk]
      refine ⟨strip x, by show ((requestConfig env ans ⟨c, c, []⟩).1.cfg .exifDiff).map strip = _; rw [hx]; rfl, ?_⟩
      rcases hx' with ⟨z, rfl⟩ | ⟨h1, h2⟩
      · rw [strip_eq_self (intStr_notWs z)]; exact intStr_ne_none z
      · rw [hload _ _ h1]; exact h2

/-! ### Refutations -/

/-- Refuted (C56): a date that was set is replaced by the date of the time reference image, whenever the offset is
determined. -/
theorem C56_date_false (env : PEnv) (ans : Key → Str) (c : Cfg) (hu : Unset c .exifDiff)
    (h : (requestConfig env ans ⟨c, c, []⟩).2 = none) :
    ∃ p d t, env.exif p = .ok (d ++ ' ' :: t) ∧ (requestConfig env ans ⟨c, c, []⟩).1.cfg .date = some d := by
  obtain ⟨c', p, d, t, _, _, _, _, e, _, hx, _, _, _, _, _, hd⟩ := C57_offset env ans c hu h
  exact ⟨p, d, t, hx, by rw [e]; exact hd⟩

/-- Refuted (C56): the answer for the time on the clock is lost if no EXIF entry can be read from the image. -/
theorem C56_clock_false (env : PEnv) (ans : Key → Str) (c : Cfg) (hset : ∀ k ∈ plainKeys, ∃ v, c k = some v ∧ v ≠ "None".toList)
    (hu : Unset c .exifDiff) (ht : Unset c .timeRefTime) (file : Str) (hf : c .timeRefFile = some file)
    (hfn : file ≠ "None".toList) (hid : Unset c .timeRefId) (e : PyErr) (hx : env.exif (env.absPath file) = .error e)
    (hp : '%' ∉ ans .timeRefTime) :
    (requestConfig env ans ⟨c, c, []⟩).2 = some e ∧
    (requestConfig env ans ⟨c, c, []⟩).1.asked = [.timeRefTime] ∧
    (requestConfig env ans ⟨c, c, []⟩).1.file .timeRefTime = some "None".toList := by
  have e1 : stepsDirect ans [.imgDir, .imgName] ⟨c, c, []⟩ = (⟨c, c, []⟩, none) :=
    stepsDirect_set ans ⟨c, c, []⟩ _ (fun k hk => hset k (by revert hk; cases k <;> decide))
  have e2 : ∀ k, stepTimeRef ans k ⟨c, c, []⟩ = (⟨c, c, []⟩, none) := by
    intro k
    unfold stepTimeRef
    rw [if_neg]
    intro hh
    have := hh.2
    simp only [getOrNone, hf, Option.getD_some] at this
    exact hfn this
  have hpath : timeRefPath env c = .ok (env.absPath file) := by
    unfold timeRefPath
    rw [hid, hf]
    simp only
    rw [if_neg (fun hh => hfn hh.2), if_pos (show "None".toList = noneText from rfl)]
  have hclock : askClock ans ⟨c, c, []⟩ =
      (⟨fun j => if j = .timeRefTime then some (ans .timeRefTime) else c j, c, [.timeRefTime]⟩, none) := by
    unfold askClock
    simp only
    rw [ht]
    simp only
    rw [if_pos (show "None".toList = noneText from rfl)]
    simp [askFor, setKey, C55_no_percent _ hp]
  have e4 : stepOffset env ans ⟨c, c, []⟩ =
      (⟨fun j => if j = .timeRefTime then some (ans .timeRefTime) else c j, c, [.timeRefTime]⟩, some e) := by
    unfold stepOffset
    simp only
    rw [hu]
    simp only
    rw [if_pos (show "None".toList = noneText from rfl)]
    unfold timeDiff
    rw [hpath]
    simp only
    rw [hclock]
    have : storeOffset env (env.absPath file) ⟨fun j => if j = .timeRefTime then some (ans .timeRefTime) else c j, c, [.timeRefTime]⟩ =
        (⟨fun j => if j = .timeRefTime then some (ans .timeRefTime) else c j, c, [.timeRefTime]⟩, some e) := by
      unfold storeOffset
      simp only [if_pos]
      rw [hx]
    rw [andThen_ok (storeOffset env (env.absPath file)) (by rfl), this, andThen_error _ rfl]
  unfold requestConfig
  rw [e1, andThen_ok _ rfl]
  simp only
  rw [e2, andThen_ok _ rfl]
  simp only
  rw [e2, andThen_ok _ rfl]
  simp only
  rw [e4, andThen_error _ rfl]
  exact ⟨rfl, rfl, ht⟩

/-- The options of a new configuration as loaded in the next run. -/
theorem new_cfg (v : Arg → Str) :
    ∃ c, readIni (writeIni (newConfig fun a => [v a])) = .ok c ∧ cfgOf c .timeRefId = none ∧
      cfgOf c .imgDir = some (strip (v .imgDirectory)) ∧ cfgOf c .imgName = some (strip (v .imgNameString)) ∧
      cfgOf c .timeRefFile = some (strip (v .timeRefImgFile)) ∧ cfgOf c .exifDiff = some (strip (v .timeDiff)) := by
  have hg : GoodArgs fun a => [v a] := goodArgs_single v
  have one : ∀ x : Str, normLines [x] = [strip x] := by
    intro x
    unfold normLines joinLines
    simp only [List.map_cons, List.map_nil, List.reverse_singleton]
    generalize strip x = y
    cases y with
    | nil => rfl
    | cons a b => rw [List.dropWhile_cons_of_neg (by simp)]; rfl
  have get : ∀ (a : Arg) (k : Key), a ≠ .timeRefImgId → docName a = keyName k →
      cfgOf (loaded (newConfig fun a => [v a])) k = some (strip (v a)) := by
    intro a k ha hk
    have := lookup_new (fun a => [v a]) a ha
    rw [one, hk] at this
    unfold cfgOf
    rw [this]
  obtain ⟨c, hc, hn⟩ := C55_false (fun a => [v a]) hg
  have hc' := C55_round_trip _ (newConfig_good _ hg)
  rw [hc] at hc'
  refine ⟨c, hc, ?_, ?_⟩
  · have hn' : lookup c (keyName .timeRefId).1 (keyName .timeRefId).2 = none := hn
    unfold cfgOf
    rw [hn']
  · rw [Except.ok.inj hc']
    exact ⟨get .imgDirectory .imgDir (by decide) rfl, get .imgNameString .imgName (by decide) rfl,
      get .timeRefImgFile .timeRefFile (by decide) rfl, get .timeDiff .exifDiff (by decide) rfl⟩

/-- The first two questions of a new configuration. -/
theorem first_steps (ans : Key → Str) (c : Cfg) (d n : Str) (hd : c .imgDir = some d) (hn : c .imgName = some n)
    (h1 : '%' ∉ ans .imgDir) (h2 : '%' ∉ ans .imgName) :
    (stepsDirect ans [.imgDir, .imgName] ⟨c, c, []⟩).2 = none := by
  have p1 := C55_no_percent _ h1
  have p2 := C55_no_percent _ h2
  have s1 : (stepDirect ans .imgDir ⟨c, c, []⟩).2 = none := by
    unfold stepDirect; simp only; rw [hd]; simp only
    split
    · simp [askFor, setKey, p1, PRes.andThen, saveCfg]
    · rfl
  have s2 : ∀ w : PWorld, w.cfg .imgName = some n → (stepDirect ans .imgName w).2 = none := by
    intro w hw
    unfold stepDirect; rw [hw]; simp only
    split
    · simp [askFor, setKey, p2, PRes.andThen, saveCfg]
    · rfl
  rw [stepsDirect, andThen_ok _ s1, stepsDirect]
  have := s2 (stepDirect ans .imgDir ⟨c, c, []⟩).1 (by rw [touches_stepDirect ans .imgDir _ _ (by decide)]; exact hn)
  rw [andThen_ok _ this]; rfl

/-- Refuted (C57): if only the file of the time reference image is given when the configuration is created, the next run
stops with `KeyError`, whatever the user answers and whatever the images are. -/
theorem C57_file_only_false (v : Arg → Str) (hf : strip (v .timeRefImgFile) ≠ "None".toList)
    (hd : strip (v .timeDiff) = "None".toList) :
    ∃ c, readIni (writeIni (newConfig fun a => [v a])) = .ok c ∧
      ∀ (env : PEnv) (ans : Key → Str), '%' ∉ ans .imgDir → '%' ∉ ans .imgName →
        (requestConfig env ans ⟨cfgOf c, cfgOf c, []⟩).2 = some .keyError := by
  obtain ⟨c, hc, n1, n2, n3, n4, n5⟩ := new_cfg v
  refine ⟨c, hc, fun env ans p1 p2 => ?_⟩
  have e1 := first_steps ans (cfgOf c) _ _ n2 n3 p1 p2
  have a1 := touches_stepsDirect ans [.imgDir, .imgName] ⟨cfgOf c, cfgOf c, []⟩
  generalize hw : (stepsDirect ans [.imgDir, .imgName] ⟨cfgOf c, cfgOf c, []⟩) = r at e1 a1
  have e2 : ∀ k, stepTimeRef ans k r.1 = (r.1, none) := by
    intro k
    unfold stepTimeRef
    rw [if_neg]
    intro hh
    have := hh.2
    simp only [getOrNone] at this
    rw [a1 .timeRefFile (by decide)] at this
    simp only [n4, Option.getD_some] at this
    exact hf this
  have e4 : stepOffset env ans r.1 = (r.1, some .keyError) := by
    unfold stepOffset
    rw [a1 .exifDiff (by decide)]
    simp only
    rw [n5, hd]
    simp only
    rw [if_pos (show "None".toList = noneText from rfl)]
    unfold timeDiff timeRefPath
    rw [a1 .timeRefId (by decide)]
    simp only
    rw [n1]
    rfl
  unfold requestConfig
  rw [hw, andThen_ok _ e1, e2, andThen_ok _ rfl]
  simp only
  rw [e2, andThen_ok _ rfl]
  simp only
  rw [e4, andThen_error _ rfl]

/-- Refuted (C57): the id of the time reference image given when the configuration is created is asked for again in the next
run. -/
theorem C57_id_only_false (v : Arg → Str) (hf : strip (v .timeRefImgFile) = "None".toList)
    (hd : strip (v .timeDiff) = "None".toList) :
    ∃ c, readIni (writeIni (newConfig fun a => [v a])) = .ok c ∧
      ∀ (env : PEnv) (ans : Key → Str), '%' ∉ ans .imgDir → '%' ∉ ans .imgName →
        .timeRefId ∈ (requestConfig env ans ⟨cfgOf c, cfgOf c, []⟩).1.asked := by
  obtain ⟨c, hc, n1, n2, n3, n4, n5⟩ := new_cfg v
  refine ⟨c, hc, fun env ans p1 p2 => ?_⟩
  have e1 := first_steps ans (cfgOf c) _ _ n2 n3 p1 p2
  have a1 := touches_stepsDirect ans [.imgDir, .imgName] ⟨cfgOf c, cfgOf c, []⟩
  generalize hw : (stepsDirect ans [.imgDir, .imgName] ⟨cfgOf c, cfgOf c, []⟩) = r at e1 a1
  have hno : NoTimeRef r.1.cfg := by
    refine ⟨.inl ?_, .inr ?_, ?_⟩
    · rw [a1 .timeRefId (by decide)]; exact n1
    · rw [Unset, a1 .timeRefFile (by decide), ← hf]; exact n4
    · rw [Unset, a1 .exifDiff (by decide), ← hd]; exact n5
  have e2 : .timeRefId ∈ (stepTimeRef ans .timeRefId r.1).1.asked := by
    have hg : getOrNone r.1.cfg .timeRefId = noneText ∧ getOrNone r.1.cfg .timeRefFile = noneText :=
      ⟨(missing_iff _ _).2 hno.1, (missing_iff _ _).2 hno.2.1⟩
    unfold stepTimeRef
    rw [if_pos hg, hno.2.2]
    simp only
    rw [if_pos (show "None".toList = noneText from rfl)]
    by_cases hp : percentOk (ans .timeRefId) = true
    · simp [askFor, setKey, hp, PRes.andThen, saveCfg]
    · simp [askFor, setKey, hp, PRes.andThen]
  have keep : ∀ (r : PRes) (g : PWorld → PRes), Key.timeRefId ∈ r.1.asked → (∃ L, Asks g r.1 L) →
      Key.timeRefId ∈ (r.andThen g).1.asked := by
    intro r g h1 ⟨L, l, h2, _, _⟩
    cases hr : r.2 with
    | some e => rw [andThen_error _ hr]; exact h1
    | none => rw [andThen_ok _ hr, h2]; exact List.mem_append_left _ h1
  unfold requestConfig
  rw [hw, andThen_ok _ e1]
  refine keep _ _ e2 ⟨_, (asks_stepTimeRef ans .timeRefFile _).andThen fun _ =>
    (asks_stepOffset env ans _).andThen fun _ => asks_stepsDirect ans lateKeys (by decide) _⟩

/-- Neither id nor file: the program stops with `ValueError`. -/
theorem C57_neither (env : PEnv) (c : Cfg) (hi : Unset c .timeRefId) (hf : Unset c .timeRefFile) :
    timeRefPath env c = .error .valueError := by
  unfold timeRefPath
  rw [hi, hf]
  simp only
  rw [if_pos ⟨show "None".toList = noneText from rfl, show "None".toList = noneText from rfl⟩]

/-! ### Examples -/

/-- A configuration for the examples. -/
def exampleCfg : Cfg := fun k => match k with
  | .imgDir => some "img/".toList
  | .imgName => some "None".toList
  | .timeRefId => some "None".toList
  | .timeRefFile => some "None".toList
  | .timeRefTime => some "None".toList
  | .date => some "01.02.2020".toList
  | .exifDiff => some "None".toList
  | .refImg => some "7".toList
  | .maxLeds => some "None".toList
  | .firstExp => some "1".toList
  | .lastExp => some "None".toList
  | .numArrays => some "3".toList

/-- Answers for the examples. -/
def exampleAns : Key → Str := fun k => match k with
  | .imgName => "img_{}.jpg".toList
  | .timeRefId => "12".toList
  | .timeRefTime => "12:00:00".toList
  | .maxLeds => "400".toList
  | .lastExp => "99".toList
  | _ => "None".toList

/-- Images for the examples. -/
def exampleEnv : PEnv where
  pathOfId := fun d _ i => .ok (d ++ i)
  absPath := id
  exif := fun _ => .ok "2021:03:04 11:59:30".toList

example : (requestConfig exampleEnv exampleAns ⟨exampleCfg, exampleCfg, []⟩).2 = none ∧
    (requestConfig exampleEnv exampleAns ⟨exampleCfg, exampleCfg, []⟩).1.asked =
      [.imgName, .timeRefId, .timeRefTime, .maxLeds, .lastExp] ∧
    (requestConfig exampleEnv exampleAns ⟨exampleCfg, exampleCfg, []⟩).1.file .exifDiff = some "-30".toList ∧
    (requestConfig exampleEnv exampleAns ⟨exampleCfg, exampleCfg, []⟩).1.file .date = some "2021:03:04".toList ∧
    (requestConfig exampleEnv exampleAns ⟨exampleCfg, exampleCfg, []⟩).1.file .refImg = some "7".toList := by
  decide +kernel

example : questions exampleCfg exampleAns = [.imgName, .timeRefId, .timeRefTime, .maxLeds, .lastExp] := by decide +kernel

example : (requestConfig exampleEnv (fun k => if k = .timeRefId then "None".toList else exampleAns k)
    ⟨exampleCfg, exampleCfg, []⟩).1.asked = [.imgName, .timeRefId, .timeRefFile] ∧
    (requestConfig exampleEnv (fun k => if k = .timeRefId then "None".toList else exampleAns k)
    ⟨exampleCfg, exampleCfg, []⟩).2 = some .valueError := by decide +kernel

end Ledsa
