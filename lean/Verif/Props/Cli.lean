import Verif.Model.Cli
import Verif.Props.Analysis

/-!
# The command line: steps and channels (C70), configuration (C71), channels of the colour correction (C76), repeated actions (C89)
-/

namespace Ledsa

/-! ### C70 -/

/-- The flag of a channel. -/
def channelFlag (a : CliArgs) : ℕ → Bool
  | 0 => a.red || a.rgb
  | 1 => a.green || a.rgb
  | 2 => a.blue || a.rgb
  | _ => false

/-- **C70.** A channel is processed exactly if its flag or the flag for all channels is given, or none is given and it is red;
channels are in ascending order, each once. -/
theorem C70_channels (a : CliArgs) :
    (∀ c, c ∈ cliChannels a ↔ channelFlag a c = true ∨ (c = 0 ∧ ∀ k, channelFlag a k = false)) ∧
      (cliChannels a).Pairwise (· < ·) := by
  have hall : (∀ k, channelFlag a k = false) ↔ (a.red = false ∧ a.green = false ∧ a.blue = false ∧ a.rgb = false) := by
    constructor
    · intro h
      have h0 := h 0
      have h1 := h 1
      have h2 := h 2
      simp only [channelFlag, Bool.or_eq_false_iff] at h0 h1 h2
      exact ⟨h0.1, h1.1, h2.1, h0.2⟩
    · rintro ⟨h0, h1, h2, h3⟩ k
      match k with
      | 0 => simp [channelFlag, h0, h3]
      | 1 => simp [channelFlag, h1, h3]
      | 2 => simp [channelFlag, h2, h3]
      | k + 3 => rfl
  constructor
  · intro c
    rw [hall]
    unfold cliChannels
    match c with
    | 0 => cases h0 : a.red <;> cases h1 : a.green <;> cases h2 : a.blue <;> cases h3 : a.rgb <;> simp [channelFlag, h0, h3]
    | 1 => cases h0 : a.red <;> cases h1 : a.green <;> cases h2 : a.blue <;> cases h3 : a.rgb <;> simp [channelFlag, h1, h3]
    | 2 => cases h0 : a.red <;> cases h1 : a.green <;> cases h2 : a.blue <;> cases h3 : a.rgb <;> simp [channelFlag, h2, h3]
    | c + 3 => cases a.red <;> cases a.green <;> cases a.blue <;> cases a.rgb <;> simp [channelFlag]
  · unfold cliChannels
    cases a.red <;> cases a.green <;> cases a.blue <;> cases a.rgb <;> decide

/-- The steps visible in a list of actions: 1 and 2, 3 with fits, 4 the fast variant, 5 a restart, 6 the coordinates. -/
def stepsOf : List CliAct → List ℕ
  | [] => []
  | .setupStep3 :: .process _ true :: l => 3 :: stepsOf l
  | .setupStep3 :: .process _ false :: l => 4 :: stepsOf l
  | .setupRestart :: .process _ _ :: l => 5 :: stepsOf l
  | .findAreas :: l => 1 :: stepsOf l
  | .matchArrays :: l => 2 :: stepsOf l
  | .coordinates :: l => 6 :: stepsOf l
  | _ :: l => stepsOf l

theorem steps_cases (a : CliArgs) : stepsOf (stepsPart a).1 =
    (if a.step1 then [1] else []) ++ ((if a.step2 then [2] else []) ++ ((if runsStep3 a then [3] else []) ++
      ((if a.step3fast then [4] else []) ++ ((if a.restart then [5] else []) ++ (if a.coordinates then [6] else []))))) := by
  unfold stepsPart
  generalize cliChannels a = ch
  cases a.step1 <;> cases a.step2 <;> cases runsStep3 a <;> cases a.step3fast <;> cases a.restart <;> cases a.coordinates <;> rfl

/-- **C70.** The steps run in the order 1, 2, 3, 3 fast, restart, coordinates, each at most once; steps 1, 2, 3 fast, restart and
coordinates run exactly if requested. Step 3 with fits also runs for a single channel flag, or the flag for all channels
without the fast variant. -/
theorem C70_steps (a : CliArgs) :
    (stepsOf (stepsPart a).1).Pairwise (· < ·) ∧
    (1 ∈ stepsOf (stepsPart a).1 ↔ a.step1 = true) ∧ (2 ∈ stepsOf (stepsPart a).1 ↔ a.step2 = true) ∧
    (3 ∈ stepsOf (stepsPart a).1 ↔ a.step3 = true ∨ a.red = true ∨ a.green = true ∨ a.blue = true ∨
      (a.rgb = true ∧ a.step3fast = false)) ∧
    (4 ∈ stepsOf (stepsPart a).1 ↔ a.step3fast = true) ∧ (5 ∈ stepsOf (stepsPart a).1 ↔ a.restart = true) ∧
    (6 ∈ stepsOf (stepsPart a).1 ↔ a.coordinates = true) := by
  have h3 : runsStep3 a = true ↔ a.step3 = true ∨ a.red = true ∨ a.green = true ∨ a.blue = true ∨
      (a.rgb = true ∧ a.step3fast = false) := by
    simp [runsStep3, or_assoc]
  rw [← h3, steps_cases]
  cases a.step1 <;> cases a.step2 <;> cases runsStep3 a <;> cases a.step3fast <;> cases a.restart <;> cases a.coordinates <;> decide

/-- The program run by `main` contains the steps, unless there is an error before them. -/
theorem C70_main (a : CliArgs) (hasConfig hasAna : Bool) (hd : a.demo = false) (hc : (configPart a hasConfig).2 = none) :
    ∃ l, (cliMain a hasConfig hasAna).1 = (runTools a).1 ++ (configPart a hasConfig).1 ++ (stepsPart a).1 ++ l := by
  have hs : (stepsPart a).2 = none := rfl
  have ht : (runTools a).2 = none := rfl
  unfold cliMain
  rw [hd]
  simp only [Bool.false_eq_true, if_false]
  unfold runExtraction
  simp only [thenRun, hc, hs, ht]
  exact ⟨_, by simp only [List.append_assoc]; rfl⟩

/-- **C70.** Every image processing uses exactly the chosen channels. -/
theorem C70_processed (a : CliArgs) (ch : List ℕ) (fit : Bool) (h : .process ch fit ∈ (stepsPart a).1) : ch = cliChannels a := by
  unfold stepsPart at h
  generalize cliChannels a = c at *
  revert h
  cases a.step1 <;> cases a.step2 <;> cases runsStep3 a <;> cases a.step3fast <;> cases a.restart <;> cases a.coordinates <;>
    simp [thenRun, doIf] <;> aesop

/-- **C70.** The documented rule for step 3 holds exactly for these combinations of flags. -/
theorem C70_step3_iff (a : CliArgs) :
    (3 ∈ stepsOf (stepsPart a).1 ↔ a.step3 = true ∨
      ((a.red = true ∨ a.green = true ∨ a.blue = true ∨ a.rgb = true) ∧ a.step3fast = false ∧ a.restart = false)) ↔
    (a.step3 = true ∨ ((a.red = true ∨ a.green = true ∨ a.blue = true) → a.step3fast = false ∧ a.restart = false) ∧
      (a.rgb = true → a.step3fast = false → a.restart = false)) := by
  rw [(C70_steps a).2.2.2.1]
  cases a.step3 <;> cases a.red <;> cases a.green <;> cases a.blue <;> cases a.rgb <;> cases a.step3fast <;>
    cases a.restart <;> decide

/-- Refuted: the fast variant or a restart for a single channel also runs step 3 with fits, before it. -/
theorem C70_false (a : CliArgs) (hc : a.red = true ∨ a.green = true ∨ a.blue = true) (hf : a.step3fast = true ∨ a.restart = true) :
    ∃ l, stepsOf (stepsPart a).1 = (if a.step1 then [1] else []) ++ (if a.step2 then [2] else []) ++ 3 :: l ∧ l ≠ [] := by
  have h3 : runsStep3 a = true := by
    rcases hc with h | h | h <;> simp [runsStep3, h]
  rw [steps_cases, h3]
  refine ⟨(if a.step3fast then [4] else []) ++ ((if a.restart then [5] else []) ++ (if a.coordinates then [6] else [])),
    by simp, ?_⟩
  rcases hf with h | h <;> simp [h]

/-- A run without flags. -/
def noArgs : CliArgs :=
  ⟨false, none, false, false, false, false, false, false, false, false, false, false, false, false, false, [], false, none,
    false, none, false, false⟩

example : (cliMain { noArgs with step3fast := true, rgb := true } true false).1 =
    [.extractor true [0, 1, 2] false, .setupStep3, .process [0, 1, 2] false] := by decide

example : (cliMain { noArgs with step3fast := true, red := true } true false).1 =
    [.extractor true [0] true, .setupStep3, .process [0] true, .extractor true [0] false, .setupStep3, .process [0] false] := by
  decide

/-! ### C71 -/

/-- Whether something of the data extraction is asked for. -/
def wantsExtraction (a : CliArgs) : Prop :=
  a.step1 = true ∨ a.step2 = true ∨ a.step3 = true ∨ a.step3fast = true ∨ a.restart = true ∨ a.red = true ∨ a.green = true ∨
    a.blue = true ∨ a.rgb = true ∨ a.coordinates = true

/-- **C71.** Without a configuration file and without the option to create one, every request for data extraction ends with
`FileNotFoundError`, and nothing but the requested renaming of images has been done. Missing: the option to create one with
more than three values (`C71_false`). -/
theorem C71_partial (a : CliArgs) (hasAna : Bool) (hd : a.demo = false) (hc : a.config = none) (hw : wantsExtraction a) :
    cliMain a false hasAna = (if a.prepareImages then [.rename] else [], some .fileNotFound) := by
  have h : (a.step1 || a.step2 || a.step3 || a.step3fast || a.restart || a.red || a.green || a.blue || a.rgb || a.coordinates) =
      true := by
    unfold wantsExtraction at hw
    simp only [Bool.or_eq_true]
    tauto
  have hcp : configPart a false = ([], some .fileNotFound) := by
    unfold configPart
    rw [hc]
    simp only
    rw [if_pos h]
    rfl
  unfold cliMain runExtraction
  rw [hd, hcp]
  simp only [Bool.false_eq_true, if_false]
  cases hp : a.prepareImages <;> simp [thenRun, runTools, doIf, hp]

/-- **C71.** With up to three values the configuration is created before anything else of the data extraction. -/
theorem C71_created (a : CliArgs) (hasConfig hasAna : Bool) (hd : a.demo = false) (given : List Str) (hc : a.config = some given)
    (hl : given.length ≤ 3) :
    ∃ l, (cliMain a hasConfig hasAna).1 = (if a.prepareImages then [.rename] else []) ++ .createConfig given :: l := by
  have hcp : configPart a hasConfig = ([.createConfig given], none) := by
    unfold configPart
    rw [hc]
    simp [doIf, hl]
  obtain ⟨l, h⟩ := C70_main a hasConfig hasAna hd (by rw [hcp])
  rw [h, hcp]
  refine ⟨(stepsPart a).1 ++ l, ?_⟩
  cases hp : a.prepareImages <;> simp [runTools, doIf, hp]

/-- Refuted: with more than three values no configuration is created and none is looked for; the steps start. -/
theorem C71_false (a : CliArgs) (hasAna : Bool) (hd : a.demo = false) (hp : a.prepareImages = false) (given : List Str)
    (hc : a.config = some given) (hl : 3 < given.length) (hs : a.step1 = true) :
    ∃ l, (cliMain a false hasAna).1 = .extractor false (cliChannels a) true :: .findAreas :: l := by
  have hcp : configPart a false = ([], none) := by
    unfold configPart
    rw [hc]
    simp only [doIf]
    rw [if_neg (by simp; omega)]
  obtain ⟨l, h⟩ := C70_main a false hasAna hd (by rw [hcp])
  rw [h, hcp]
  simp only [runTools, doIf, hp, stepsPart, thenRun, hs]
  exact ⟨_, rfl⟩

/-! ### C76 -/

/-- **C76.** Without the option the colour correction gets the channels 0, 1 and 2. -/
theorem C76_default_partial (a : CliArgs) (h : a.ccChannels = []) : ccList a.ccChannels = [0, 1, 2] := by
  rw [h]; rfl

/-- Refuted: whatever channels are given, they are added to the default, so the chosen channels are never the given ones. -/
theorem C76_false (given : List (List ℤ)) : ccList given = [0, 1, 2] ++ given.flatten ∧ ccList given ≠ given.flatten := by
  refine ⟨rfl, fun h => ?_⟩
  have := congrArg List.length h
  rw [ccList, List.length_append] at this
  simp only [List.length_cons, List.length_nil] at this
  omega

/-- **C76.** The colour correction of a run gets these channels. -/
theorem C76_passed_on (a : CliArgs) (hasAna : Bool) (ch : List ℤ) (h : .colourCorrection ch ∈ (runAnalysis a hasAna).1) :
    ch = [0, 1, 2] ++ a.ccChannels.flatten := by
  unfold runAnalysis at h
  revert h
  cases a.configAnalysis <;> cases a.analysis <;> cases a.cc <;> cases hasAna <;> simp [thenRun, doIf, ccList]

/-- Refuted: with any channel given the correction with a 3 × 3 matrix fails. -/
theorem C76_fails_false (to16 : Int16Cast) (M : Matrix (Fin 3) (Fin 3) ℚ) (raw : ℕ → ℤ) (given : List (List ℤ))
    (hg : given.flatten ≠ []) : ∃ e, applyCC to16 M ((ccList given).map Int.toNat) raw = .error e := by
  unfold applyCC
  by_cases hM : M.det = 0
  · rw [if_pos hM]; exact ⟨_, rfl⟩
  · rw [if_neg hM, if_pos]
    · exact ⟨_, rfl⟩
    · have := List.length_pos_iff.2 hg
      simp only [ccList, List.length_map, List.length_append, List.length_cons, List.length_nil, ne_eq]
      omega

/-! ### C89 -/

/-- **C89.** The extraction steps and the calculation of coefficients are carried out at most once. -/
theorem C89_extinction_once_partial (a : CliArgs) (hasConfig hasAna : Bool) :
    (cliMain a hasConfig hasAna).1.count .extinction ≤ 1 := by
  have h1 : (runTools a).1.count .extinction = 0 := by
    unfold runTools doIf; cases a.prepareImages <;> decide
  have h2 : (configPart a hasConfig).1.count .extinction = 0 := by
    unfold configPart
    cases a.config with
    | some g =>
      simp only [doIf]
      split
      · rw [List.count_eq_zero]; simp
      · rfl
    | none =>
      simp only
      split
      · cases hasConfig <;> rfl
      · rfl
  have h3 : (stepsPart a).1.count .extinction = 0 := by
    rw [List.count_eq_zero]
    unfold stepsPart
    generalize cliChannels a = c
    cases a.step1 <;> cases a.step2 <;> cases runsStep3 a <;> cases a.step3fast <;> cases a.restart <;> cases a.coordinates <;>
      simp [thenRun, doIf]
  have h4 : ∀ b, (runAnalysis a b).1.count .extinction = 0 := by
    intro b
    rw [List.count_eq_zero]
    unfold runAnalysis
    cases a.configAnalysis <;> cases a.analysis <;> cases a.cc <;> cases b <;> simp [thenRun, doIf]
  have h5 : (runTesting a).1.count .extinction = 0 := by
    unfold runTesting doIf thenRun; cases a.acceptance <;> cases a.acceptanceDebug <;> decide
  have h6 : (runDemo a).1.count .extinction = 0 := by
    rw [List.count_eq_zero]
    unfold runDemo
    generalize truthy [] a.setup = st
    generalize truthy 0 a.nCores = co
    split
    · exact List.not_mem_nil
    · split
      · exact List.not_mem_nil
      · cases st <;> cases a.run <;> simp [thenRun, doIf]
  have hle : ∀ x y : CliRun, (thenRun x y).1.count .extinction ≤ x.1.count .extinction + y.1.count .extinction := by
    intro x y
    unfold thenRun
    split
    · exact Nat.le_add_right _ _
    · rw [List.count_append]
  have h7 : ∀ b, (runAnalysisExtinction a b).1.count .extinction ≤ 1 := by
    intro b
    refine (hle _ _).trans ?_
    rw [h4]
    unfold doIf
    cases a.analysis <;> decide
  unfold cliMain
  split
  · omega
  · refine (hle _ _).trans ?_
    have e1 := hle (runExtraction a hasConfig) (thenRun (runAnalysis a hasAna)
      (thenRun (runAnalysisExtinction a (hasAna || a.configAnalysis)) (runTesting a)))
    have e2 := hle (runAnalysis a hasAna) (thenRun (runAnalysisExtinction a (hasAna || a.configAnalysis)) (runTesting a))
    have e3 := hle (runAnalysisExtinction a (hasAna || a.configAnalysis)) (runTesting a)
    have e4 := hle (configPart a hasConfig) (stepsPart a)
    have e5 := h7 (hasAna || a.configAnalysis)
    have e6 := h4 hasAna
    have e7 : (runExtraction a hasConfig).1.count .extinction ≤ 0 := by
      unfold runExtraction; omega
    omega

/-- Refuted: one call creates the analysis configuration twice, and corrects the colours twice. -/
theorem C89_false (a : CliArgs) (hasConfig hasAna : Bool) (hd : a.demo = false) (hc : (configPart a hasConfig).2 = none)
    (hx : a.configAnalysis = true ∨ hasAna = true) :
    ∃ l l', (cliMain a hasConfig hasAna).1 = l ++
      ((if a.configAnalysis then [.createAnaConfig] else []) ++ (if a.cc then [.colourCorrection (ccList a.ccChannels)] else [])) ++
      ((if a.configAnalysis then [.createAnaConfig] else []) ++ (if a.cc then [.colourCorrection (ccList a.ccChannels)] else [])) ++
      l' := by
  have hs : (stepsPart a).2 = none := rfl
  have ht : (runTools a).2 = none := rfl
  have hr : ∀ b, a.configAnalysis = true ∨ b = true → runAnalysis a b =
      ((if a.configAnalysis then [.createAnaConfig] else []) ++ (if a.cc then [.colourCorrection (ccList a.ccChannels)] else []), none) := by
    intro b hb
    unfold runAnalysis
    revert hb
    cases a.configAnalysis <;> cases a.analysis <;> cases a.cc <;> cases b <;> simp [thenRun, doIf]
  have r1 := hr hasAna hx
  have r2 := hr (hasAna || a.configAnalysis) (by rcases hx with h | h <;> simp [h])
  unfold cliMain runAnalysisExtinction runExtraction
  rw [hd, r1, r2]
  simp only [Bool.false_eq_true, if_false, thenRun, hc, hs, ht, doIf]
  exact ⟨(runTools a).1 ++ ((configPart a hasConfig).1 ++ (stepsPart a).1), _, by simp only [List.append_assoc]; rfl⟩

example : (cliMain { noArgs with cc := true, analysis := true } false true).1 =
    [.colourCorrection [0, 1, 2], .colourCorrection [0, 1, 2], .extinction] := by decide

/-! ### C90 -/

/-- **C90.** With `--demo` and a sensible request (a non-empty path or the flag to run, a number of cores only with the flag to
run) the demo is set up, then run with the given number of cores; nothing else is done. -/
theorem C90_demo (a : CliArgs) (hasConfig hasAna : Bool) (hd : a.demo = true)
    (h : (∃ p, a.setup = some p ∧ p ≠ [] ∧ (a.run = true ∨ a.nCores = none)) ∨ (a.run = true ∧ a.setup = none))
    (hn : a.nCores ≠ some 0) :
    cliMain a hasConfig hasAna = ((match a.setup with
      | some p => [.demoSetup p]
      | none => []) ++ (if a.run then [.demoRun (a.nCores.getD 1)] else []), none) := by
  have hc : truthy 0 a.nCores = a.nCores := by
    cases hh : a.nCores with
    | none => rfl
    | some k =>
      refine if_neg ?_
      intro h0
      rw [h0] at hh
      exact hn hh
  unfold cliMain runDemo
  rw [if_pos hd, hc]
  rcases h with ⟨p, hp, hpe, hr⟩ | ⟨hr, hs⟩
  · have hs : truthy [] a.setup = some p := by
      rw [hp]; exact if_neg hpe
    rw [hs, hp]
    rcases hr with hr | hr
    · simp [hr, thenRun, doIf]
    · cases a.run <;> simp [hr, thenRun, doIf]
  · rw [hs]
    simp [truthy, hr, thenRun, doIf]

/-- **C90.** Without `--demo` neither the demo is set up nor run, whatever its options; with it nothing else is done. -/
theorem C90_separate (a : CliArgs) (hasConfig hasAna : Bool) (act : CliAct) (hm : act ∈ (cliMain a hasConfig hasAna).1) :
    ((∃ p, act = .demoSetup p) ∨ (∃ k, act = .demoRun k)) ↔ a.demo = true := by
  have key : ∀ (P : CliAct → Prop) (x y : CliRun), (∀ c ∈ x.1, P c) → (∀ c ∈ y.1, P c) → ∀ c ∈ (thenRun x y).1, P c := by
    intro P x y hx hy c hc
    unfold thenRun at hc
    split at hc
    · exact hx c hc
    · rcases List.mem_append.1 hc with h | h
      · exact hx c h
      · exact hy c h
  cases hd : a.demo with
  | true =>
    simp only [iff_true]
    unfold cliMain at hm
    rw [if_pos hd] at hm
    revert hm
    unfold runDemo
    generalize truthy [] a.setup = st
    generalize truthy 0 a.nCores = co
    split
    · intro h; cases h
    · split
      · intro h; cases h
      · cases st <;> cases a.run <;> simp [thenRun, doIf] <;> aesop
  | false =>
    simp only [Bool.false_eq_true, iff_false]
    let P : CliAct → Prop := fun act => ¬((∃ p, act = .demoSetup p) ∨ (∃ k, act = .demoRun k))
    have hif : ∀ (c : Bool) (l : List CliAct), (∀ x ∈ l, P x) → ∀ x ∈ (doIf c l).1, P x := by
      intro c l hl x hx
      unfold doIf at hx
      cases c
      · cases hx
      · exact hl x hx
    have h1 : ∀ c ∈ (runTools a).1, P c := hif _ _ (by simp [P])
    have h2 : ∀ c ∈ (configPart a hasConfig).1, P c := by
      unfold configPart
      cases a.config with
      | some g => exact hif _ _ (by simp [P])
      | none =>
        simp only
        split
        · cases hasConfig <;> (intro c hc; cases hc)
        · intro c hc; cases hc
    have h3 : ∀ c ∈ (stepsPart a).1, P c := by
      unfold stepsPart
      refine key P _ _ (hif _ _ ?_) (key P _ _ (hif _ _ (by simp [P])) (key P _ _ (hif _ _ (by simp [P]))
        (key P _ _ (hif _ _ (by simp [P])) (hif _ _ (by simp [P])))))
      cases a.step1 <;> cases a.step2 <;> simp [P]
    have h4 : ∀ b, ∀ c ∈ (runAnalysis a b).1, P c := by
      intro b
      unfold runAnalysis
      refine key P _ _ ?_ (hif _ _ (by simp [P]))
      cases a.configAnalysis <;> cases a.analysis <;> cases a.cc <;> cases b <;> simp [P]
    have h5 : ∀ c ∈ (runTesting a).1, P c := key P _ _ (hif _ _ (by simp [P])) (hif _ _ (by simp [P]))
    unfold cliMain at hm
    rw [hd] at hm
    simp only [Bool.false_eq_true, if_false] at hm
    exact key P _ _ h1 (key P _ _ (key P _ _ h2 h3) (key P _ _ (h4 _) (key P _ _ (key P _ _ (h4 _) (hif _ _ (by simp [P]))) h5))) act hm

example : cliMain { noArgs with demo := true, setup := some ['d'], run := true, nCores := some 4 } false false =
    ([.demoSetup ['d'], .demoRun 4], none) := by decide

/-- Refuted: a requested number of cores 0 is silently replaced by 1. -/
theorem C90_zero_cores_false (a : CliArgs) (hasConfig hasAna : Bool) (hd : a.demo = true) (hr : a.run = true)
    (h0 : a.nCores = some 0) : .demoRun 1 ∈ (cliMain a hasConfig hasAna).1 := by
  unfold cliMain runDemo
  rw [if_pos hd, h0]
  cases truthy [] a.setup <;> simp [hr, truthy, thenRun, doIf]

/-! ### C70: extractors -/

/-- What directly precedes an action on the results: step 3 starts with newly built image infos, a restart and the other steps
work on the existing ones, and the processing uses the options of its extractor. -/
def ProperlyPrepared (ch : List ℕ) (x y : CliAct) : Prop :=
  (y = .setupStep3 → ∃ fit, x = .extractor true ch fit) ∧ (y = .setupRestart → x = .extractor false ch false) ∧
  (y = .findAreas → x = .extractor false ch true) ∧
  (∀ c fit, y = .process c fit → c = ch ∧ (x = .setupStep3 ∨ x = .setupRestart ∧ fit = false)) ∧
  (∀ fit, x = .extractor true ch fit → y = .setupStep3)

/-- **C70.** -/
theorem C70_prepared (a : CliArgs) : (stepsPart a).1.IsChain (ProperlyPrepared (cliChannels a)) := by
  unfold stepsPart doIf
  generalize runsStep3 a = s3
  generalize cliChannels a = ch
  cases a.step1 <;> cases a.step2 <;> cases s3 <;> cases a.step3fast <;> cases a.restart <;> cases a.coordinates <;>
    simp [thenRun, ProperlyPrepared]

/-! ### C70: tests -/

/-- **C70.** The acceptance tests come after everything else that was asked for, the one with all output after the plain one. -/
theorem C70_tests (a : CliArgs) (hasConfig hasAna : Bool) (hd : a.demo = false) (he : (cliMain a hasConfig hasAna).2 = none) :
    ∃ l, (cliMain a hasConfig hasAna).1 =
      l ++ ((if a.acceptance then [.acceptance false] else []) ++ (if a.acceptanceDebug then [.acceptance true] else [])) ∧
      ∀ b, CliAct.acceptance b ∉ l := by
  have key : ∀ (x y : CliRun), (thenRun x y).2 = none → (thenRun x y).1 = x.1 ++ y.1 ∧ x.2 = none ∧ y.2 = none := by
    rintro ⟨xs, xe⟩ ⟨ys, ye⟩ h
    cases xe with
    | some e => exact absurd h (by simp [thenRun])
    | none => exact ⟨rfl, rfl, h⟩
  unfold cliMain at he ⊢
  rw [hd] at he ⊢
  simp only [Bool.false_eq_true, if_false] at he ⊢
  obtain ⟨e1, -, h1⟩ := key _ _ he
  obtain ⟨e2, h2', h2⟩ := key _ _ h1
  obtain ⟨e3, -, h3⟩ := key _ _ h2
  obtain ⟨e4, h4, -⟩ := key _ _ h3
  rw [e1, e2, e3, e4]
  refine ⟨(runTools a).1 ++ ((runExtraction a hasConfig).1 ++ ((runAnalysis a hasAna).1 ++ (runAnalysisExtinction a (hasAna || a.configAnalysis)).1)),
    by unfold runTesting thenRun doIf; simp [List.append_assoc], ?_⟩
  have hrun : ∀ b c, CliAct.acceptance b ∉ (runAnalysis a c).1 := by
    intro b c
    unfold runAnalysis
    cases a.configAnalysis <;> cases a.analysis <;> cases a.cc <;> cases c <;> simp [thenRun, doIf]
  intro b hb
  simp only [List.mem_append] at hb
  rcases hb with hb | hb | hb | hb
  · revert hb; unfold runTools doIf; cases a.prepareImages <;> simp
  · obtain ⟨e5, -, -⟩ := key _ _ h2'
    rw [runExtraction, e5, List.mem_append] at hb
    rcases hb with hb | hb
    · revert hb; unfold configPart doIf
      cases a.config with
      | some g => simp only; split <;> simp
      | none => simp only; split <;> [cases hasConfig <;> simp; simp]
    · revert hb; unfold stepsPart
      cases a.step1 <;> cases a.step2 <;> cases runsStep3 a <;> cases a.step3fast <;> cases a.restart <;> cases a.coordinates <;>
        simp [thenRun, doIf]
  · exact hrun b _ hb
  · obtain ⟨e6, -, -⟩ := key _ _ h4
    rw [runAnalysisExtinction, e6, List.mem_append] at hb
    rcases hb with hb | hb
    · exact hrun b _ hb
    · revert hb; unfold doIf; cases a.analysis <;> simp

example : (cliMain { noArgs with acceptance := true, acceptanceDebug := true } true true) = ([.acceptance false, .acceptance true], none) := by decide

end Ledsa
