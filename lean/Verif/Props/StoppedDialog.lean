import Verif.Props.AnalysisConfig

/-!
# A dialogue that is stopped

An analysis asks for parameters that are missing in `config_analysis.ini`. What happens to the answers given so far if the program is stopped at
a question, and what does the next run ask for?
-/

namespace Ledsa

variable {F : Type}

/-- Answers that do not depend on the questions before. -/
def plainAnswers (a : AKey → Str) : List AKey → AKey → Str := fun _ k => a k

/-- The dialogue is stopped at the question for `k`: the answer there is one that the program rejects. An interrupt at the question has the same
effect, as nothing is assigned then either. -/
def stoppedAt (a : AKey → Str) (k : AKey) : List AKey → AKey → Str := fun _ j => if j = k then "%".toList else a j

/-- The questions before the one for `k`. -/
noncomputable def questionsBefore (float : Str → Except PyErr F) (c : ACfg) (k : AKey) : List AKey := (questionsFor float c).takeWhile (· ≠ k)

/-- The configuration with the answers to some questions. -/
def withAnswers (a : AKey → Str) (l : List AKey) (c : ACfg) : ACfg := fun j => if j ∈ l then some (a j) else c j

theorem percent_bad : percentOk "%".toList = false := by decide

open Classical in
/-- **C198**: a dialogue stopped at the question for `k` has saved exactly the answers given before; all other values in the file are as they
were. (The answers are such that an analysis that is not stopped starts.) -/
theorem C198_saved (float : Str → Except PyErr F) (a : AKey → Str) (c : ACfg) (k : AKey) (hk : k ∈ questionsFor float c) (w : AWorld) (s : ASettings F)
    (pairs : List (Int × Int)) (h : startAnalysis float (plainAnswers a) ⟨c, c, []⟩ = (w, .ok (s, pairs))) :
    startAnalysis float (stoppedAt a k) ⟨c, c, []⟩ =
      (⟨withAnswers a (questionsBefore float c k) c, withAnswers a (questionsBefore float c k) c, questionsBefore float c k ++ [k]⟩, .error .valueError) := by
  have hok := ((C99_started_iff_partial float (plainAnswers a) c c w s pairs).1 h).1
  have hq : ∀ j ∈ questionsFor float c, percentOk (a j) = true := hok
  unfold startAnalysis at h ⊢
  rw [aProg_andThen_ok] at h
  obtain ⟨w1, s1, h, -⟩ := h
  unfold loadParameters at h ⊢
  simp only [aProg_andThen_ok] at h
  obtain ⟨wa, n, e1, wb, ch, e2, wc, ref, e3, wd, solver, e4, we, params, e5, wf, prop, e6, -⟩ := h
  have f1 := silent_getInt .numLayers ⟨c, c, []⟩
  rw [e1] at f1
  simp only at f1
  subst f1
  have f2 := silent_getList pyInt .cameraChannels ⟨c, c, []⟩
  rw [e2] at f2
  simp only at f2
  subst f2
  have f3 := silent_getRef ⟨c, c, []⟩
  rw [e3] at f3
  simp only at f3
  subst f3
  have f4 := silent_getKey .solver ⟨c, c, []⟩
  rw [e4] at f4
  simp only at f4
  subst f4
  have f5 := silent_getParams float solver ⟨c, c, []⟩
  rw [e5] at f5
  simp only at f5
  subst f5
  have f6 := silent_getKey .refProperty ⟨c, c, []⟩
  rw [e6] at f6
  simp only at f6
  subst f6
  simp only [AProg.andThen, e1, e2, e3, e4, e5, e6]
  have hk3 : k = .ledArrays ∨ k = .domainBounds ∨ k = .cameraPosition := by
    unfold questionsFor at hk
    have := (List.mem_filter.1 hk).1
    simpa using this
  have hmem : ∀ j, j ∈ [AKey.ledArrays, .domainBounds, .cameraPosition] → MissingOpt float c j → percentOk (a j) = true := fun j hj hm =>
    hq j (by unfold questionsFor; rw [List.mem_filter]; exact ⟨hj, by simpa using hm⟩)
  have p1 : NoList pyInt (c .ledArrays) → percentOk (a .ledArrays) = true := hmem .ledArrays (by simp)
  have p2 : NoList float (c .domainBounds) → percentOk (a .domainBounds) = true := hmem .domainBounds (by simp)
  have p3 : NoList float (c .cameraPosition) → percentOk (a .cameraPosition) = true := hmem .cameraPosition (by simp)
  have hkm : MissingOpt float c k := by
    unfold questionsFor at hk
    simpa using (List.mem_filter.1 hk).2
  have hset : ∀ (x y : AKey), x ≠ y → ∀ ans : List AKey → AKey → Str, ∀ w : AWorld, (answerWorld ans x w).cfg y = w.cfg y := by
    intro x y hxy ans w
    simp [answerWorld, Ne.symm hxy]
  rcases hk3 with rfl | rfl | rfl
  · have m1 : NoList pyInt (c .ledArrays) := hkm
    rw [listOrAsk_ask _ _ _ _ m1]
    simp only [stoppedAt, if_true, percent_bad, Bool.false_eq_true, if_false]
    have hb : questionsBefore float c .ledArrays = [] := by
      unfold questionsBefore questionsFor
      simp [MissingOpt, m1]
    rw [hb]
    rfl
  · have m2 : NoList float (c .domainBounds) := hkm
    by_cases m1 : NoList pyInt (c .ledArrays)
    · have hb : questionsBefore float c .domainBounds = [.ledArrays] := by
        unfold questionsBefore questionsFor
        simp [MissingOpt, m1, m2]
      rw [listOrAsk_ask _ _ _ _ m1]
      simp only [stoppedAt, reduceCtorEq, if_false, p1 m1, if_true]
      rw [listOrAsk_ask _ _ _ _ (by rw [hset _ _ (by decide)]; exact m2), hb]
      simp only [stoppedAt, if_true, percent_bad, Bool.false_eq_true, if_false]
      simp only [answerWorld, List.nil_append, List.cons_append]
      have : (fun j => if j = AKey.ledArrays then some (stoppedAt a .domainBounds [] .ledArrays) else c j) = withAnswers a [.ledArrays] c := by
        funext j
        unfold withAnswers
        cases j <;> simp [stoppedAt]
      rw [this]
    · have hb : questionsBefore float c .domainBounds = [] := by
        unfold questionsBefore questionsFor
        simp [MissingOpt, m1, m2]
      rw [listOrAsk_set _ _ _ _ m1]
      simp only
      rw [listOrAsk_ask _ _ _ _ m2, hb]
      simp only [stoppedAt, if_true, percent_bad, Bool.false_eq_true, if_false]
      rfl
  · have m3 : NoList float (c .cameraPosition) := hkm
    by_cases m1 : NoList pyInt (c .ledArrays) <;> by_cases m2 : NoList float (c .domainBounds)
    · have hb : questionsBefore float c .cameraPosition = [.ledArrays, .domainBounds] := by
        unfold questionsBefore questionsFor
        simp [MissingOpt, m1, m2, m3]
      rw [listOrAsk_ask _ _ _ _ m1]
      simp only [stoppedAt, reduceCtorEq, if_false, p1 m1, if_true]
      rw [listOrAsk_ask _ _ _ _ (by rw [hset _ _ (by decide)]; exact m2)]
      simp only [stoppedAt, reduceCtorEq, if_false, p2 m2, if_true]
      rw [listOrAsk_ask _ _ _ _ (by rw [hset _ _ (by decide), hset _ _ (by decide)]; exact m3), hb]
      simp only [stoppedAt, if_true, percent_bad, Bool.false_eq_true, if_false]
      simp only [answerWorld, List.nil_append, List.cons_append]
      have : (fun j => if j = AKey.domainBounds then some (stoppedAt a .cameraPosition [.ledArrays] .domainBounds)
          else if j = .ledArrays then some (stoppedAt a .cameraPosition [] .ledArrays) else c j) = withAnswers a [.ledArrays, .domainBounds] c := by
        funext j
        unfold withAnswers
        cases j <;> simp [stoppedAt]
      rw [this]
    · have hb : questionsBefore float c .cameraPosition = [.ledArrays] := by
        unfold questionsBefore questionsFor
        simp [MissingOpt, m1, m2, m3]
      rw [listOrAsk_ask _ _ _ _ m1]
      simp only [stoppedAt, reduceCtorEq, if_false, p1 m1, if_true]
      rw [listOrAsk_set _ _ _ _ (by rw [hset _ _ (by decide)]; exact m2)]
      simp only
      rw [listOrAsk_ask _ _ _ _ (by rw [hset _ _ (by decide)]; exact m3), hb]
      simp only [stoppedAt, if_true, percent_bad, Bool.false_eq_true, if_false]
      simp only [answerWorld, List.nil_append, List.cons_append]
      have : (fun j => if j = AKey.ledArrays then some (stoppedAt a .cameraPosition [] .ledArrays) else c j) = withAnswers a [.ledArrays] c := by
        funext j
        unfold withAnswers
        cases j <;> simp [stoppedAt]
      rw [this]
    · have hb : questionsBefore float c .cameraPosition = [.domainBounds] := by
        unfold questionsBefore questionsFor
        simp [MissingOpt, m1, m2, m3]
      rw [listOrAsk_set _ _ _ _ m1]
      simp only
      rw [listOrAsk_ask _ _ _ _ m2]
      simp only [stoppedAt, reduceCtorEq, if_false, p2 m2, if_true]
      rw [listOrAsk_ask _ _ _ _ (by rw [hset _ _ (by decide)]; exact m3), hb]
      simp only [stoppedAt, if_true, percent_bad, Bool.false_eq_true, if_false]
      simp only [answerWorld, List.nil_append, List.cons_append]
      have : (fun j => if j = AKey.domainBounds then some (stoppedAt a .cameraPosition [] .domainBounds) else c j) = withAnswers a [.domainBounds] c := by
        funext j
        unfold withAnswers
        cases j <;> simp [stoppedAt]
      rw [this]
    · have hb : questionsBefore float c .cameraPosition = [] := by
        unfold questionsBefore questionsFor
        simp [MissingOpt, m1, m2, m3]
      rw [listOrAsk_set _ _ _ _ m1]
      simp only
      rw [listOrAsk_set _ _ _ _ m2]
      simp only
      rw [listOrAsk_ask _ _ _ _ m3, hb]
      simp only [stoppedAt, if_true, percent_bad, Bool.false_eq_true, if_false]
      rfl

theorem filter_not_before {α : Type} [DecidableEq α] (p : α → Bool) (l : List α) (hl : l.Nodup) :
    l.filter (fun x => decide (x ∉ l.takeWhile p)) = l.dropWhile p := by
  have hd : (l.takeWhile p ++ l.dropWhile p).Nodup := by rw [List.takeWhile_append_dropWhile]; exact hl
  have h1 : (l.takeWhile p ++ l.dropWhile p).filter (fun x => decide (x ∉ l.takeWhile p)) = l.dropWhile p := by
    rw [List.filter_append]
    have e1 : (l.takeWhile p).filter (fun x => decide (x ∉ l.takeWhile p)) = [] := by
      rw [List.filter_eq_nil_iff]
      intro x hx
      simpa using hx
    have e2 : (l.dropWhile p).filter (fun x => decide (x ∉ l.takeWhile p)) = l.dropWhile p := by
      rw [List.filter_eq_self]
      intro x hx
      have := (List.nodup_append.1 hd).2.2
      simp only [decide_eq_true_eq]
      exact fun hm => this x hm x hx rfl
    rw [e1, e2, List.nil_append]
  rw [List.takeWhile_append_dropWhile] at h1
  exact h1

open Classical in
/-- **C198**: the next run asks exactly for the questions that are left, and with the same answers it uses the same settings as a run that was not
stopped. -/
theorem C198_resumed (float : Str → Except PyErr F) (a : AKey → Str) (c : ACfg) (hload : ∀ k t, c k = some t → strip t = t) (k : AKey)
    (w : AWorld) (s : ASettings F) (pairs : List (Int × Int)) (h : startAnalysis float (plainAnswers a) ⟨c, c, []⟩ = (w, .ok (s, pairs))) :
    let c' : ACfg := fun j => (withAnswers a (questionsBefore float c k) c j).map strip
    ∃ w', startAnalysis float (plainAnswers a) ⟨c', c', []⟩ = (w', .ok (s, pairs)) ∧ w'.asked = (questionsFor float c).dropWhile (· ≠ k) := by
  intro c'
  obtain ⟨h1, -, -, -, arrays, channels, hs, hp⟩ := (C99_started_iff_partial float (plainAnswers a) c c w s pairs).1 h
  have hstrip : ∀ j, (c j).map strip = c j := by
    intro j
    cases hj : c j with
    | none => rfl
    | some t => simp [hload j t hj]
  have hbq : ∀ j, j ∈ questionsBefore float c k → j ∈ questionsFor float c := fun j hj => List.takeWhile_subset _ hj
  have hqm : ∀ j, j ∈ questionsFor float c → MissingOpt float c j := fun j hj => by
    unfold questionsFor at hj
    simpa using (List.mem_filter.1 hj).2
  have hq3 : ∀ j, j ∈ questionsFor float c → j = .ledArrays ∨ j = .domainBounds ∨ j = .cameraPosition := fun j hj => by
    unfold questionsFor at hj
    simpa using (List.mem_filter.1 hj).1
  have hcin : ∀ j, j ∈ questionsBefore float c k → c' j = (answered float (plainAnswers a) c j).map strip := by
    intro j hj
    have e1 : answered float (plainAnswers a) c j = some (a j) := by
      unfold answered
      rw [if_pos (hqm j (hbq j hj))]
      rfl
    rw [e1]
    simp only [c', withAnswers, hj, if_true]
  have hcout : ∀ j, j ∉ questionsBefore float c k → c' j = c j := by
    intro j hj
    simp only [c', withAnswers, hj, if_false, hstrip]
  have good : ∀ j, j ∈ questionsFor float c → ¬ MissingOpt float (answered float (plainAnswers a) c) j := by
    intro j hj
    rcases hq3 j hj with rfl | rfl | rfl
    · exact fun hm => (noList_iff _ _).1 hm ⟨_, hs.arrays.2⟩
    · exact fun hm => (noList_iff _ _).1 hm ⟨_, hs.bounds⟩
    · exact fun hm => (noList_iff _ _).1 hm ⟨_, hs.cam⟩
  have hmiss : ∀ j, MissingOpt float c' j ↔ MissingOpt float c j ∧ j ∉ questionsBefore float c k := by
    intro j
    by_cases hj : j ∈ questionsBefore float c k
    · have hg := good j (hbq j hj)
      have : ¬ MissingOpt float c' j := by
        rcases hq3 j (hbq j hj) with rfl | rfl | rfl
        · simp only [MissingOpt, noList_iff] at hg ⊢
          simp only [hcin _ hj, isList_strip]
          exact hg
        · simp only [MissingOpt, noList_iff] at hg ⊢
          simp only [hcin _ hj, isList_strip]
          exact hg
        · simp only [MissingOpt, noList_iff] at hg ⊢
          simp only [hcin _ hj, isList_strip]
          exact hg
      exact ⟨fun h => absurd h this, fun h => absurd hj h.2⟩
    · have : MissingOpt float c' j ↔ MissingOpt float c j := by
        cases j <;> simp only [MissingOpt, hcout _ hj]
      rw [this]
      exact ⟨fun h => ⟨h, hj⟩, fun h => h.1⟩
  have hnd : (questionsFor float c).Nodup := by
    unfold questionsFor
    exact List.Nodup.filter _ (by decide)
  have hq : questionsFor float c' = (questionsFor float c).dropWhile (· ≠ k) := by
    rw [← filter_not_before _ _ hnd]
    conv_lhs => unfold questionsFor
    conv_rhs => rw [show questionsFor float c = [AKey.ledArrays, .domainBounds, .cameraPosition].filter (fun k => decide (MissingOpt float c k)) from rfl]
    rw [List.filter_filter]
    refine List.filter_congr fun j _ => ?_
    rw [Bool.eq_iff_iff, Bool.and_eq_true, decide_eq_true_eq, decide_eq_true_eq, decide_eq_true_eq, hmiss]
    exact and_comm
  have hans : ∀ j, answered float (plainAnswers a) c' j = answered float (plainAnswers a) c j ∨
      j ∈ questionsBefore float c k ∧ answered float (plainAnswers a) c' j = (answered float (plainAnswers a) c j).map strip := by
    intro j
    by_cases hj : j ∈ questionsBefore float c k
    · refine Or.inr ⟨hj, ?_⟩
      rw [← hcin j hj]
      unfold answered
      rw [if_neg fun h => ((hmiss j).1 h).2 hj]
    · refine Or.inl ?_
      unfold answered
      by_cases hm : MissingOpt float c j
      · rw [if_pos hm, if_pos ((hmiss j).2 ⟨hm, hj⟩)]
        rfl
      · rw [if_neg hm, if_neg fun h => hm ((hmiss j).1 h).1, hcout j hj]
  have hother : ∀ j, j ≠ .ledArrays ∧ j ≠ .domainBounds ∧ j ≠ .cameraPosition → answered float (plainAnswers a) c' j = answered float (plainAnswers a) c j := by
    intro j hj
    rcases hans j with h | ⟨h, -⟩
    · exact h
    · rcases hq3 j (hbq j h) with h | h | h
      · exact absurd h hj.1
      · exact absurd h hj.2.1
      · exact absurd h hj.2.2
  have hlist : ∀ {α : Type} (conv : Str → Except PyErr α) (j : AKey) (l : List α), IsList conv (answered float (plainAnswers a) c j) l →
      IsList conv (answered float (plainAnswers a) c' j) l := by
    intro α conv j l hl
    rcases hans j with h | ⟨-, h⟩
    · rw [h]; exact hl
    · rw [h, isList_strip]; exact hl
  have hset : SettingsOf float (answered float (plainAnswers a) c') s arrays channels := by
    refine ⟨?_, hs.layers_ge, ⟨hs.channels.1, hlist _ _ _ hs.channels.2⟩, ⟨hs.arrays.1, hlist _ _ _ hs.arrays.2⟩, ?_, ?_, ?_, ?_, hlist _ _ _ hs.bounds,
      hlist _ _ _ hs.cam, ?_⟩
    · rw [hother _ (by decide)]; exact hs.layers
    · simp only [hother .refImgIndices (by decide), hother .numRefImages (by decide)]; exact hs.ref
    · rw [hother _ (by decide)]; exact hs.solver
    · simp only [hother .weightPref (by decide), hother .weightCurv (by decide), hother .numIterations (by decide),
        hother .lambdaReg (by decide)]
      exact hs.params
    · rw [hother _ (by decide)]; exact hs.property
    · rw [hother _ (by decide)]; exact hs.cores
  refine ⟨⟨answered float (plainAnswers a) c', if questionsFor float c' = [] then c' else answered float (plainAnswers a) c', questionsFor float c'⟩,
    (C99_started_iff_partial float (plainAnswers a) c' c' _ s pairs).2 ⟨?_, rfl, rfl, rfl, arrays, channels, hset, hp⟩, hq⟩
  intro j hj
  rw [hq] at hj
  exact h1 j (List.dropWhile_subset _ hj)

/-- **C198, unreadable answers**: an answer that gives no list is saved like any other, and the next run asks the same question again. -/
theorem C198_asked_again (float : Str → Except PyErr F) (a : AKey → Str) (w : AWorld) (hc : w.file .ledArrays = some (a .ledArrays)) (hbad : NoList pyInt (some (a .ledArrays))) :
    let c' : ACfg := fun j => (w.file j).map strip
    .ledArrays ∈ questionsFor float c' := by
  intro c'
  unfold questionsFor
  rw [List.mem_filter]
  refine ⟨by simp, ?_⟩
  have : MissingOpt float c' .ledArrays := by
    show NoList pyInt (c' .ledArrays)
    rw [noList_iff] at hbad ⊢
    simp only [c', hc, isList_strip]
    exact hbad
  simpa using this

/-- A configuration in which LED arrays, bounds and camera position are missing (whole numbers in place of floats). -/
def openConfig : ACfg
  | .numCores => some "1".toList
  | .refProperty => some "sum_col_val".toList
  | .numRefImages => some "10".toList
  | .refImgIndices => some "None".toList
  | .cameraChannels => some "0".toList
  | .averageImages => some "False".toList
  | .solver => some "linear".toList
  | .lambdaReg => some "1".toList
  | .numLayers => some "20".toList
  | _ => some "None".toList

/-- Answers. -/
def openAnswers : AKey → Str
  | .ledArrays => "0 1".toList
  | .domainBounds => "0 3".toList
  | _ => "5 2 1".toList

/-- Stopped at the third question: the first two answers are in the file. -/
example : let r := startAnalysis pyInt (stoppedAt openAnswers .cameraPosition) ⟨openConfig, openConfig, []⟩
    r.1.asked = [.ledArrays, .domainBounds, .cameraPosition] ∧ r.1.file .ledArrays = some "0 1".toList ∧ r.1.file .domainBounds = some "0 3".toList ∧
    r.1.file .cameraPosition = some "None".toList := by decide +kernel

/-- The next run asks for the camera position only and starts the analysis of both arrays. -/
example : let r := startAnalysis pyInt (stoppedAt openAnswers .cameraPosition) ⟨openConfig, openConfig, []⟩
    let r' := startAnalysis pyInt (plainAnswers openAnswers) ⟨r.1.file, r.1.file, []⟩
    r'.1.asked = [.cameraPosition] ∧ r'.2.toOption.map (·.2) = some [(0, 0), (1, 0)] := by decide +kernel

end Ledsa
