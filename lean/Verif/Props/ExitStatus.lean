import Verif.Model.ExitStatus
import Verif.Props.Cli
import Verif.Props.Rename

/-!
# The exit status

A script that calls the program looks at the exit status to find out whether everything it asked for was done.
-/

namespace Ledsa

/-- What a command line without `--demo` asks for. -/
inductive Asked (a : CliArgs) : CliAct → Prop
  | rename : a.prepareImages = true → Asked a .rename
  | config (given : List Str) : a.config = some given → Asked a (.createConfig given)
  | areas : a.step1 = true → Asked a .findAreas
  | arrays : a.step2 = true → Asked a .matchArrays
  | fit : a.step3 = true → Asked a (.process (cliChannels a) true)
  | fast : a.step3fast = true → Asked a (.process (cliChannels a) false)
  | again : a.restart = true → Asked a .setupRestart
  | coordinates : a.coordinates = true → Asked a .coordinates
  | anaConfig : a.configAnalysis = true → Asked a .createAnaConfig
  | colour : a.cc = true → Asked a (.colourCorrection (ccList a.ccChannels))
  | analysis : a.analysis = true → Asked a .extinction
  | tests : a.acceptance = true → Asked a (.acceptance false)
  | debug : a.acceptanceDebug = true → Asked a (.acceptance true)

/-- The claim: the status 0 says that everything was done. `how` is any behaviour of the actions in which the renamer behaves as it does. -/
def StatusTells (C : Type) : Prop := ∀ (how : CliAct → ActEnd) (a : CliArgs) (hasConfig hasAna : Bool) (w : RenameWorld C) (answers : List Str),
  a.demo = false → how .rename = (renamer w answers).ending → (programRun how a hasConfig hasAna).2 = some 0 →
  ∀ act, Asked a act → act ∈ (programRun how a hasConfig hasAna).1

theorem execute_zero (how : CliAct → ActEnd) (rest : Status) (acts : List CliAct) (hno : ∀ act ∈ acts, how act ≠ .exited 0)
    (h : (execute how rest acts).2 = some 0) : (execute how rest acts).1 = acts ∧ rest = some 0 := by
  induction acts with
  | nil => exact ⟨rfl, h⟩
  | cons act acts ih =>
    unfold execute at h ⊢
    cases hh : how act with
    | returned =>
      simp only [hh] at h ⊢
      have := ih (fun b hb => hno b (List.mem_cons_of_mem _ hb)) h
      exact ⟨by rw [this.1], this.2⟩
    | raised => simp only [hh] at h; cases h
    | exited k =>
      simp only [hh] at h
      cases h
      exact absurd hh (hno act List.mem_cons_self)
    | waiting => simp only [hh] at h; cases h

/-- What was completed is a first part of the actions. -/
theorem execute_prefix (how : CliAct → ActEnd) (rest : Status) (acts : List CliAct) : (execute how rest acts).1 <+: acts := by
  induction acts with
  | nil => exact List.prefix_rfl
  | cons act acts ih =>
    unfold execute
    cases how act with
    | returned => exact List.cons_prefix_cons.2 ⟨rfl, ih⟩
    | raised => exact List.nil_prefix
    | exited k => exact List.nil_prefix
    | waiting => exact List.nil_prefix

theorem lastStatus_zero {e : Option PyErr} (h : lastStatus e = some 0) : e = none := by
  cases e with
  | none => rfl
  | some e => cases e <;> cases h

theorem thenRun_ended {a b : CliRun} (h : (thenRun a b).2 = none) : a.2 = none ∧ b.2 = none ∧ (thenRun a b).1 = a.1 ++ b.1 := by
  unfold thenRun at h ⊢
  cases ha : a.2 with
  | some e => simp only [ha] at h; cases h
  | none => simp only [ha] at h ⊢; exact ⟨trivial, h, trivial⟩

theorem asked_done (a : CliArgs) (hasConfig hasAna : Bool) (hd : a.demo = false) (hc : ∀ given, a.config = some given → given.length ≤ 3)
    (h : (cliMain a hasConfig hasAna).2 = none) (act : CliAct) (hw : Asked a act) : act ∈ (cliMain a hasConfig hasAna).1 := by
  unfold cliMain at h ⊢
  simp only [hd, Bool.false_eq_true, if_false] at h ⊢
  obtain ⟨_, h2, e1⟩ := thenRun_ended h
  obtain ⟨h3, h4, e2⟩ := thenRun_ended h2
  obtain ⟨h5, h6, e3⟩ := thenRun_ended h4
  obtain ⟨h7, _, e4⟩ := thenRun_ended h6
  rw [e1, e2, e3, e4]
  have h3' := h3
  unfold runExtraction at h3' ⊢
  obtain ⟨_, h9, e5⟩ := thenRun_ended h3'
  have e6 : (stepsPart a).1 = _ := rfl
  unfold runAnalysisExtinction at h7 ⊢
  obtain ⟨_, _, e7⟩ := thenRun_ended h7
  have h5' := h5
  unfold runAnalysis at h5'
  obtain ⟨_, _, e8⟩ := thenRun_ended h5'
  rw [e5, e7]
  have e9 : (runAnalysis a hasAna).1 = _ := e8
  rw [e9]
  cases hw with
  | rename h => simp [runTools, doIf, h]
  | config given h => simp [configPart, h, doIf, hc given h]
  | areas h => simp [stepsPart, thenRun, doIf, h]
  | arrays h => simp [stepsPart, thenRun, doIf, h]
  | fit h => simp [stepsPart, thenRun, doIf, runsStep3, h]
  | fast h => simp [stepsPart, thenRun, doIf, h]
  | again h => simp [stepsPart, thenRun, doIf, h]
  | coordinates h => simp [stepsPart, thenRun, doIf, h]
  | anaConfig h => simp [h]
  | colour h => simp [doIf, h]
  | analysis h => simp [doIf, h]
  | tests h => simp [runTesting, thenRun, doIf, h]
  | debug h => simp [runTesting, thenRun, doIf, h]

/-- **C197** (partial): without renaming of photos and with at most three values after `--config`, the status 0 says that everything asked for was
completed. The actions may end in any way except a call of `exit(0)`, which none but the renaming
contains. -/
theorem C197_status_partial (how : CliAct → ActEnd) (a : CliArgs) (hasConfig hasAna : Bool) (hd : a.demo = false)
    (hno : ∀ act ∈ (cliMain a hasConfig hasAna).1, how act ≠ .exited 0) (hc : ∀ given, a.config = some given → given.length ≤ 3)
    (h : (programRun how a hasConfig hasAna).2 = some 0) (act : CliAct) (hw : Asked a act) : act ∈ (programRun how a hasConfig hasAna).1 := by
  unfold programRun at h ⊢
  obtain ⟨h1, h2⟩ := execute_zero how _ _ hno h
  rw [h1]
  exact asked_done a hasConfig hasAna hd hc (lastStatus_zero h2) act hw

/-- **C197, the other way**: if an action fails, the status is not 0, and no later action is done. -/
theorem C197_failed (how : CliAct → ActEnd) (a : CliArgs) (hasConfig hasAna : Bool) (before after : List CliAct) (act : CliAct)
    (h : (cliMain a hasConfig hasAna).1 = before ++ act :: after) (hb : ∀ b ∈ before, how b = .returned) (hf : how act = .raised) :
    programRun how a hasConfig hasAna = (before, some 1) := by
  unfold programRun
  rw [h]
  clear h
  induction before with
  | nil => simp only [List.nil_append, execute, hf]
  | cons b l ih =>
    have := ih fun c hc => hb c (List.mem_cons_of_mem _ hc)
    simp only [List.cons_append, execute, hb b List.mem_cons_self, this]

theorem endOf_not_returned (e : RenameEnd) : endOf e ≠ .returned := by cases e <;> exact fun h => by cases h

/-- **C197, renaming**: the renamer never comes back to the program, whatever is answered. -/
theorem C197_no_return {C : Type} (w : RenameWorld C) (answers : List Str) : (renamer w answers).ending ≠ .returned := by
  cases answers with
  | nil => exact fun h => by cases h
  | cons d answers =>
    unfold renamer setWorkingDir
    by_cases h1 : w.there d = true
    · by_cases h2 : w.isDir d = true
      · simp only [h1, h2, if_true]
        match answers with
        | [] => exact fun h => by cases h
        | [_] => exact fun h => by cases h
        | images :: raws :: more =>
          dsimp only
          cases w.table d images raws with
          | error e => exact fun h => by cases h
          | ok shots =>
            cases more with
            | nil => exact fun h => by cases h
            | cons name dialogue => exact endOf_not_returned _
      · simp only [h1, h2, if_true]
        exact fun h => by cases h
    · simp only [h1]
      exact fun h => by cases h

/-- **C197 refuted with `--prepare_images`**: nothing else that the command line asks for is done, for all arguments and answers. -/
theorem C197_rename_only {C : Type} (how : CliAct → ActEnd) (a : CliArgs) (hasConfig hasAna : Bool) (w : RenameWorld C) (answers : List Str)
    (hd : a.demo = false) (hp : a.prepareImages = true) (hr : how .rename = (renamer w answers).ending) :
    (programRun how a hasConfig hasAna).1 = [] := by
  have h : ∃ l, (cliMain a hasConfig hasAna).1 = .rename :: l := by
    unfold cliMain
    simp only [hd, Bool.false_eq_true, if_false]
    exact ⟨_, by simp [thenRun, runTools, doIf, hp]; rfl⟩
  obtain ⟨l, hl⟩ := h
  unfold programRun
  rw [hl]
  have := C197_no_return w answers
  rw [← hr] at this
  unfold execute
  cases hh : how .rename with
  | returned => exact absurd hh this
  | raised => rfl
  | exited k => rfl
  | waiting => rfl

/-- **C197, directory of the renamer**: no file outside the entered directory is renamed; if it is not there, the program ends with the status 0,
nothing is changed, and the message names the directory that the program is in instead of the missing one. -/
theorem C197_directory {C : Type} (w : RenameWorld C) (d : Str) (answers : List Str) :
    (w.there d = true → w.isDir d = true → (renamer w (d :: answers)).dir = d) ∧
    (w.there d = true → w.isDir d = false → (renamer w (d :: answers)) = ⟨w.cwd, w.files w.cwd, none, .raised⟩) ∧
    (w.there d = false → (renamer w (d :: answers)) = ⟨w.cwd, w.files w.cwd, some w.cwd, .exited 0⟩) := by
  refine ⟨fun h1 h2 => ?_, fun h1 h2 => ?_, fun h1 => ?_⟩
  · unfold renamer setWorkingDir
    simp only [h1, h2, if_true]
    match answers with
    | [] => rfl
    | [_] => rfl
    | images :: raws :: more =>
      dsimp only
      cases w.table d images raws with
      | error e => rfl
      | ok shots =>
        cases more with
        | nil => rfl
        | cons name dialogue => rfl
  · unfold renamer setWorkingDir
    simp [h1, h2]
  · unfold renamer setWorkingDir
    simp [h1]

/-- **C197, renaming as answered**: with an existing directory and a table of images, the status is 0 exactly if the dialogue is ended by an answer;
the files are then those of the dialogue. -/
theorem C197_dialogue {C : Type} (w : RenameWorld C) (d images raws name : Str) (dialogue : List Str) (shots : List Shot) (h1 : w.there d = true)
    (h2 : w.isDir d = true) (h3 : w.table d images raws = .ok shots) :
    let r := renameDialogue (renamePlan name shots 1) dialogue (w.files d) []
    ((renamer w (d :: images :: raws :: name :: dialogue)).ending = .exited 0 ↔ r.ending = .exited) ∧
    (renamer w (d :: images :: raws :: name :: dialogue)).files = r.dir := by
  intro r
  unfold renamer setWorkingDir
  simp only [h1, h2, if_true, h3]
  refine ⟨?_, rfl⟩
  show endOf r.ending = .exited 0 ↔ _
  cases r.ending with
  | waiting => exact ⟨fun h => (by cases h), fun h => (by cases h)⟩
  | exited => exact ⟨fun _ => rfl, fun _ => rfl⟩
  | failed e => exact ⟨fun h => (by cases h), fun h => (by cases h)⟩

/-- **C197 refuted**: `--prepare_images --step_1` with a mistyped directory ends with the status 0, and the LEDs were not searched. -/
theorem C197_false (C : Type) : ¬ StatusTells C := by
  intro h
  have := h (fun act => if act = .rename then .exited 0 else .returned) { noArgs with prepareImages := true, step1 := true } true true
    ⟨"/data".toList, fun _ => false, fun _ => false, fun _ => [], fun _ _ _ => .ok []⟩ ["/dta".toList] rfl rfl rfl .findAreas (.areas rfl)
  exact absurd this (by decide)

/-- **C197 refuted for `--config`** with four values or more: no configuration is written, and the status is 0. -/
theorem C197_config_false (how : CliAct → ActEnd) (hasAna : Bool) (given : List Str) (hg : 3 < given.length) :
    programRun how { noArgs with config := some given } true hasAna = ([], some 0) ∧
    Asked { noArgs with config := some given } (.createConfig given) := by
  refine ⟨?_, .config given rfl⟩
  have hc : (cliMain { noArgs with config := some given } true hasAna) = ([], none) := by
    simp [cliMain, noArgs, thenRun, runTools, doIf, runExtraction, configPart, stepsPart, runsStep3, runAnalysis, runAnalysisExtinction, runTesting,
      not_le.2 hg]
  unfold programRun
  rw [hc]
  rfl

/-- **C197 refuted for `--acceptance_test`**: tests that fail (a status of the test process that is not 0) give the status 0 like tests that pass. -/
theorem C197_tests_false (how : CliAct → ActEnd) (hasConfig hasAna : Bool) (failed : ℕ) (h : how (.acceptance false) = acceptanceEnd (some failed)) :
    programRun how { noArgs with acceptance := true } hasConfig hasAna = ([.acceptance false], some 0) := by
  have hc : cliMain { noArgs with acceptance := true } hasConfig hasAna = ([.acceptance false], none) := by
    cases hasConfig <;> cases hasAna <;> rfl
  unfold programRun
  rw [hc]
  unfold execute
  rw [h]
  rfl

/-- **C197 for the demo**, `--demo --setup p --run`: a refusal in the dialogue of the setup ends with the status 0 and the demo is not run; after the
setup the demo is run, with the status 0 if it comes to its end and 1 if it fails. -/
theorem C197_demo (how : CliAct → ActEnd) (a : CliArgs) (hasConfig hasAna : Bool) (hd : a.demo = true) (p : Str) (hp : p ≠ []) (hs : a.setup = some p)
    (hr : a.run = true) (answers : List Str) (done : Bool) (hh : how (.demoSetup p) = demoSetupEnd (setupDemo answers done).2) :
    let run := CliAct.demoRun ((truthy 0 a.nCores).getD 1)
    ((setupDemo answers done).2 = .exited → programRun how a hasConfig hasAna = ([], some 0)) ∧
    ((setupDemo answers done).2 = .finished → how run = .returned → programRun how a hasConfig hasAna = ([.demoSetup p, run], some 0)) ∧
    ((setupDemo answers done).2 = .finished → how run = .raised → programRun how a hasConfig hasAna = ([.demoSetup p], some 1)) := by
  intro run
  have ht : truthy [] a.setup = some p := by rw [hs]; simp only [truthy]; rw [if_neg hp]
  have hc : cliMain a hasConfig hasAna = ([.demoSetup p, run], none) := by
    unfold cliMain runDemo
    simp [hd, ht, hr, thenRun, doIf, run]
  unfold programRun
  rw [hc]
  refine ⟨fun h => ?_, fun h h2 => ?_, fun h h2 => ?_⟩
  · rw [h] at hh
    simp only [execute, hh, demoSetupEnd]
  · rw [h] at hh
    simp only [execute, hh, h2, demoSetupEnd]
    rfl
  · rw [h] at hh
    simp only [execute, hh, h2, demoSetupEnd]

/-- Steps 1 and 2 with a mistake in step 2: status 1, step 1 is done. -/
example : programRun (fun act => if act = .matchArrays then .raised else .returned) { noArgs with step1 := true, step2 := true } true false =
    ([.extractor false [0] true, .findAreas], some 1) := by decide

end Ledsa
