import Verif.Model.DemoSetup
import Verif.Props.AnalysisConfig
import Verif.Props.Argv
import Verif.Props.Config
import Verif.Props.Demo

/-!
# The demo: consent, unpacking the images, a run without questions (C116, C117, C118)
-/

namespace Ledsa

/-! ### C117: consent -/

/-- The answers that count: `yes` and `no` in any case. -/
def validAnswers (answers : List Str) : List Str :=
  (answers.map lower).filter fun a => a = "yes".toList ∨ a = "no".toList

theorem proceedPrompt_none (answers : List Str) : proceedPrompt answers = none ↔ validAnswers answers = [] := by
  induction answers with
  | nil => simp [proceedPrompt, validAnswers]
  | cons a t ih =>
    unfold proceedPrompt
    simp only [validAnswers, List.map_cons, List.filter_cons]
    by_cases h1 : lower a = "yes".toList
    · simp [h1]
    · by_cases h2 : lower a = "no".toList
      · simp [h2]
      · rw [if_neg h1, if_neg h2, if_neg (by simpa using ⟨h1, h2⟩)]
        exact ih

theorem proceedPrompt_some (answers : List Str) (b : Bool) (rest : List Str) (h : proceedPrompt answers = some (b, rest)) :
    validAnswers answers = (if b then "yes".toList else "no".toList) :: validAnswers rest := by
  induction answers with
  | nil => cases h
  | cons a t ih =>
    unfold proceedPrompt at h
    simp only [validAnswers, List.map_cons, List.filter_cons]
    by_cases h1 : lower a = "yes".toList
    · rw [if_pos h1] at h
      cases h
      rw [if_pos (by simp [h1]), h1]
      rfl
    · rw [if_neg h1] at h
      by_cases h2 : lower a = "no".toList
      · rw [if_pos h2] at h
        cases h
        rw [if_pos (by simp [h2]), h2]
        rfl
      · rw [if_neg h2] at h
        rw [if_neg (by simpa using ⟨h1, h2⟩)]
        exact ih h

/-- **C117.** The setup of the demo does its work, all of it, if the first valid answer is yes and, when the demo is set up
already, the second is yes too. -/
theorem C117_consent (answers : List Str) (done : Bool) :
    setupDemo answers done = ([.makeDirectories, .downloadAndExtract, .createConfigFiles], .finished) ↔
      (validAnswers answers).head? = some "yes".toList ∧
        (done = true → (validAnswers answers)[1]? = some "yes".toList) := by
  unfold setupDemo
  rcases h : proceedPrompt answers with _ | ⟨_ | _, rest⟩
  · rw [(proceedPrompt_none answers).1 h]; simp
  · rw [proceedPrompt_some _ _ _ h]; simp
  · rw [proceedPrompt_some _ _ _ h]
    cases done with
    | false => simp [setupWork]
    | true =>
      rcases h' : proceedPrompt rest with _ | ⟨_ | _, rest'⟩
      · rw [(proceedPrompt_none rest).1 h']; simp [h']
      · rw [proceedPrompt_some _ _ _ h']; simp [h']
      · rw [proceedPrompt_some _ _ _ h']; simp [h', setupWork]

/-- **C117.** Otherwise nothing is done: no directory is made, nothing is downloaded, no file is written. -/
theorem C117_nothing (answers : List Str) (done : Bool)
    (h : ¬ ((validAnswers answers).head? = some "yes".toList ∧
        (done = true → (validAnswers answers)[1]? = some "yes".toList))) :
    (setupDemo answers done).1 = [] := by
  rw [← C117_consent] at h
  revert h
  unfold setupDemo
  rcases proceedPrompt answers with _ | ⟨_ | _, rest⟩
  · exact fun _ => rfl
  · exact fun _ => rfl
  · cases done with
    | false => exact fun h => absurd rfl h
    | true =>
      simp only [if_true]
      rcases proceedPrompt rest with _ | ⟨_ | _, rest'⟩
      · exact fun _ => rfl
      · exact fun _ => rfl
      · exact fun h => absurd rfl h

/-- **C117.** A no ends the setup, the first or, when the demo is set up already, the second; it waits for an answer as long as
there is no valid one. -/
theorem C117_end (answers : List Str) (done : Bool) :
    ((setupDemo answers done).2 = .exited ↔
      (validAnswers answers).head? = some "no".toList ∨
        (done = true ∧ (validAnswers answers).take 2 = ["yes".toList, "no".toList])) ∧
    ((setupDemo answers done).2 = .waiting ↔
      validAnswers answers = [] ∨ (done = true ∧ validAnswers answers = ["yes".toList])) := by
  unfold setupDemo
  rcases h : proceedPrompt answers with _ | ⟨_ | _, rest⟩
  · rw [(proceedPrompt_none answers).1 h]; simp
  · rw [proceedPrompt_some _ _ _ h]; simp
  · rw [proceedPrompt_some _ _ _ h]
    cases done with
    | false => simp
    | true =>
      rcases h' : proceedPrompt rest with _ | ⟨_ | _, rest'⟩
      · rw [(proceedPrompt_none rest).1 h']; simp [h']
      · rw [proceedPrompt_some _ _ _ h']; simp [h']
      · rw [proceedPrompt_some _ _ _ h']; simp [h']

/-- A first setup after a typing error; a second one that is not confirmed. -/
example : setupDemo ["y".toList, "YES".toList] false = (setupWork, .finished) ∧
    setupDemo ["yes".toList, "No".toList] true = ([], .exited) ∧ setupDemo ["yes".toList, "".toList] true = ([], .waiting) := by
  decide

/-! ### C118: the images -/

/-- A file in an archive: folder (empty or with `/` at its end), name and content. -/
structure ZipFile where
  dir : Str
  name : Str
  content : Str
  isDir : dir = [] ∨ ∃ r, dir = r ++ ['/']
  isName : name ≠ [] ∧ '/' ∉ name

/-- Its path. -/
def ZipFile.path (f : ZipFile) : Str := f.dir ++ f.name

/-- The member of the archive. -/
def ZipFile.member (f : ZipFile) : Str × Str := (f.path, f.content)

theorem takeWhile_name (s t : Str) (hs : '/' ∉ s) (ht : t = [] ∨ ∃ r, t = '/' :: r) :
    (s ++ t).takeWhile (· ≠ '/') = s := by
  rw [List.takeWhile_append_of_pos (by
    intro c hc
    simp only [ne_eq, decide_eq_true_eq]
    rintro rfl
    exact hs hc)]
  rcases ht with rfl | ⟨r, rfl⟩
  · simp
  · rw [List.takeWhile_cons_of_neg (by simp), List.append_nil]

theorem baseName_path (f : ZipFile) : baseName f.path = f.name := by
  unfold baseName ZipFile.path
  rw [List.reverse_append, takeWhile_name _ _ (by simpa using f.isName.2), List.reverse_reverse]
  rcases f.isDir with h | ⟨r, h⟩
  · left; rw [h]; rfl
  · right; exact ⟨r.reverse, by rw [h]; simp⟩

theorem baseName_folder (r : Str) : baseName (r ++ ['/']) = [] := by
  unfold baseName
  rw [List.reverse_append]
  rfl

theorem path_slash (f : ZipFile) (h : '/' ∉ f.path) : f.path = f.name := by
  unfold ZipFile.path at *
  rcases f.isDir with hd | ⟨r, hd⟩
  · rw [hd]; rfl
  · exact absurd (by rw [hd]; simp) h

theorem unpackMember_eq (d : ImgDir) (f : ZipFile) :
    ∃ d', unpackMember d f.member = some d' ∧
      ∀ q, d' q = if q = f.name then some f.content else if q = f.path then none else d q := by
  refine ⟨_, by unfold unpackMember ZipFile.member; simp only; rw [baseName_path, if_neg f.isName.1], fun q => ?_⟩
  have h : (d.put f.path f.content) f.path = some f.content := by simp [ImgDir.put]
  unfold ImgDir.move
  rw [h]
  simp only [ImgDir.put, ImgDir.del]
  by_cases h1 : q = f.name
  · rw [if_pos h1, if_pos h1]
  · rw [if_neg h1, if_neg h1]
    by_cases h2 : q = f.path
    · rw [if_pos h2, if_pos h2]
    · rw [if_neg h2, if_neg h2, if_neg h2]

theorem unpackAll_files (first : Str) : ∀ (files : List ZipFile) (d : ImgDir), (files.map ZipFile.name).Nodup →
    (∀ f ∈ files, f.path ≠ first) →
    ∃ d', unpackAll first (files.map ZipFile.member) d = some d' ∧ (∀ f ∈ files, d' f.name = some f.content) ∧
      (∀ q, q ∉ files.map ZipFile.name → q ∈ files.map ZipFile.path → d' q = none) ∧
      (∀ q, q ∉ files.map ZipFile.name → q ∉ files.map ZipFile.path → d' q = d q)
  | [], d, _, _ => ⟨d, rfl, by simp, by simp, by simp⟩
  | f :: fs, d, hd, hf => by
    rw [List.map_cons, List.nodup_cons] at hd
    obtain ⟨d1, h1, e1⟩ := unpackMember_eq d f
    obtain ⟨d', h', a, b, c⟩ := unpackAll_files first fs d1 hd.2 (fun g hg => hf g (List.mem_cons_of_mem _ hg))
    have hp : f.name ∉ fs.map ZipFile.path := by
      intro h
      obtain ⟨g, hg, e⟩ := List.mem_map.1 h
      apply hd.1
      rw [← e, path_slash g (by rw [e]; exact f.isName.2)]
      exact List.mem_map_of_mem hg
    refine ⟨d', ?_, ?_, ?_, ?_⟩
    · rw [List.map_cons, unpackAll.eq_def]
      simp only
      rw [if_pos (show f.member.1 ≠ first from hf f (by simp)), h1]
      exact h'
    · intro g hg
      rcases List.mem_cons.1 hg with rfl | hg
      · rw [c _ hd.1 hp, e1, if_pos rfl]
      · exact a g hg
    · intro q hn hq
      simp only [List.map_cons, List.mem_cons, not_or] at hn hq
      by_cases h : q ∈ fs.map ZipFile.path
      · exact b q hn.2 h
      · rcases hq with hq | hq
        · rw [c q hn.2 h, e1, if_neg hn.1, if_pos hq]
        · exact absurd hq h
    · intro q hn hq
      simp only [List.map_cons, List.mem_cons, not_or] at hn hq
      rw [c q hn.2 hq.2, e1, if_neg hn.1, if_neg hq.1]

/-- **C118.** If the archive begins with a folder and the names of the files in it differ from each other and from the name of
the archive, then every image lies in the image directory under its own name with its content, whatever was there before; the
archive and the folders are gone; every other file is as before. Missing: an archive that begins with a file (`C118_false`) or
that has a second folder (`C118_folder_false`). -/
theorem C118_partial (zipName zip r c0 : Str) (files : List ZipFile) (d : ImgDir)
    (hd : (zipName :: files.map ZipFile.name).Nodup) :
    ∃ d', extractImages zipName zip ((r ++ ['/'], c0) :: files.map ZipFile.member) d = some d' ∧
      (∀ f ∈ files, d' f.name = some f.content) ∧ d' zipName = none ∧
      (∀ f ∈ files, f.dir ≠ [] → d' f.path = none) ∧ (∀ q, r ++ ['/'] <+: q → d' q = none) ∧
      (∀ q, q ≠ zipName → q ∉ files.map ZipFile.name → q ∉ files.map ZipFile.path → ¬ r ++ ['/'] <+: q → d' q = d q) := by
  rw [List.nodup_cons] at hd
  obtain ⟨d1, h1, a, b, c⟩ := unpackAll_files (r ++ ['/']) files (d.put zipName zip) hd.2 (by
    intro f _ h
    have := baseName_path f
    rw [h, baseName_folder] at this
    exact f.isName.1 this.symm)
  have hpre : ∀ q : Str, '/' ∉ q → (r ++ ['/']).isPrefixOf q = false := by
    intro q hq
    rw [Bool.eq_false_iff]
    intro h
    exact hq ((List.isPrefixOf_iff_prefix.1 h).subset (by simp))
  refine ⟨removeTree (r ++ ['/']) (d1.del zipName), ?_, ?_, ?_, ?_, ?_, ?_⟩
  · rw [extractImages.eq_def]
    simp only
    rw [unpackAll.eq_def]
    simp only
    rw [if_neg (by simp), h1]
  all_goals
    unfold removeTree
    rw [if_pos (baseName_folder r)]
    simp only [ImgDir.del]
  · intro f hf
    rw [hpre _ f.isName.2, if_neg (by simp), if_neg (fun h => hd.1 (by rw [← h]; exact List.mem_map_of_mem hf)), a f hf]
  · simp
  · intro f hf hdir
    have hs : '/' ∈ f.path := by
      rcases f.isDir with h | ⟨s, h⟩
      · exact absurd h hdir
      · unfold ZipFile.path; rw [h]; simp
    by_cases h : (r ++ ['/']).isPrefixOf f.path = true
    · rw [if_pos h]
    · rw [if_neg h]
      by_cases h2 : f.path = zipName
      · rw [if_pos h2]
      · rw [if_neg h2, b _ _ (List.mem_map_of_mem hf)]
        intro h
        obtain ⟨g, _, e⟩ := List.mem_map.1 h
        exact g.isName.2 (by rw [e]; exact hs)
  · intro q hq
    rw [if_pos (List.isPrefixOf_iff_prefix.2 hq)]
  · intro q h1 h2 h3 h4
    rw [if_neg (fun h => h4 (List.isPrefixOf_iff_prefix.1 h)), if_neg h1, c q h2 h3]
    simp [ImgDir.put, h1]

/-- **C118 refuted.** If the archive begins with a file, as it does without an entry for the folder, this file is not unpacked:
its place in the image directory is as before, empty the first time. -/
theorem C118_false (zipName zip : Str) (f : ZipFile) (files : List ZipFile) (d : ImgDir)
    (hd : (zipName :: f.name :: files.map ZipFile.name).Nodup) (hp : ∀ g ∈ files, g.path ≠ f.path) :
    ∃ d', extractImages zipName zip (f.member :: files.map ZipFile.member) d = some d' ∧ d' f.name = d f.name := by
  simp only [List.nodup_cons, List.mem_cons, not_or] at hd
  obtain ⟨d1, h1, a, b, c⟩ := unpackAll_files f.path files (d.put zipName zip) hd.2.2 hp
  refine ⟨removeTree f.path (d1.del zipName), ?_, ?_⟩
  · rw [extractImages.eq_def]
    simp only
    rw [unpackAll.eq_def]
    simp only
    rw [if_neg (by simp), show f.member.1 = f.path from rfl, h1]
  · unfold removeTree
    rw [if_neg (by rw [baseName_path]; exact f.isName.1)]
    have hn : f.name ≠ zipName := fun h => hd.1.1 h.symm
    simp only [ImgDir.del]
    rw [if_neg hn, c _ hd.2.1]
    · simp [ImgDir.put, hn]
    · intro h
      obtain ⟨g, hg, e⟩ := List.mem_map.1 h
      apply hd.2.1
      rw [← e, path_slash g (by rw [e]; exact f.isName.2)]
      exact List.mem_map_of_mem hg

/-- **C118 refuted.** A second folder in the archive ends the setup with an exception. -/
theorem C118_folder_false (zipName zip r c0 s c1 : Str) (files rest : List ZipFile) (d : ImgDir) (hs : s ≠ r) :
    extractImages zipName zip ((r ++ ['/'], c0) :: files.map ZipFile.member ++ (s ++ ['/'], c1) :: rest.map ZipFile.member) d
      = none := by
  have hf : ∀ f ∈ files, f.path ≠ r ++ ['/'] := by
    intro f _ h
    have := baseName_path f
    rw [h, baseName_folder] at this
    exact f.isName.1 this.symm
  have key : ∀ (fs : List ZipFile) (d : ImgDir), (∀ f ∈ fs, f.path ≠ r ++ ['/']) →
      unpackAll (r ++ ['/']) (fs.map ZipFile.member ++ (s ++ ['/'], c1) :: rest.map ZipFile.member) d = none := by
    intro fs
    induction fs with
    | nil =>
      intro d _
      rw [List.map_nil, List.nil_append, unpackAll.eq_def]
      simp only
      rw [if_pos (by simpa using hs)]
      unfold unpackMember
      simp only
      rw [if_pos (baseName_folder s)]
    | cons f fs ih =>
      intro d hp
      obtain ⟨d1, h1, -⟩ := unpackMember_eq d f
      rw [List.map_cons, List.cons_append, unpackAll.eq_def]
      simp only
      rw [if_pos (show f.member.1 ≠ r ++ ['/'] from hp f (by simp)), h1]
      exact ih d1 (fun g hg => hp g (List.mem_cons_of_mem _ hg))
  rw [List.cons_append, extractImages.eq_def]
  simp only
  rw [unpackAll.eq_def]
  simp only
  rw [if_neg (by simp), key files _ hf]

/-- Two images in a folder, over an old one. -/
example : (extractImages "i.zip".toList "Z".toList
      [("i/".toList, []), ("i/a.CR2".toList, "A".toList), ("i/b.CR2".toList, "B".toList)]
      (fun q => if q = "a.CR2".toList then some "old".toList else none)).map
        (fun d => ["a.CR2", "b.CR2", "i/a.CR2", "i.zip"].map fun q => d q.toList) =
    some [some "A".toList, some "B".toList, none, none] := by
  decide

/-! ### C116: a run without questions -/

/-- The values in the configuration of the demo. -/
def demoLines : Arg → List Str
  | .ignoreLedIndices => ["781 675 746".toList]
  | .edgeIndices => demoEdges
  | .edgeCoordinates => demoCoordinates
  | a => [demoArgument a]

theorem demoConfig_eq : demoConfig = newConfig demoLines := rfl

theorem demoLines_ok : CoreArgs demoLines where
  good := by
    intro a
    have h : demoLines a ≠ [] ∧ ∀ x ∈ (demoLines a).tail, strip x = [] ∨ (isComment (strip x) = false ∧ 3 ≤ indentOf x) := by
      cases a <;> decide +kernel
    exact h
  lines := by intro a; cases a <;> decide +kernel
  single := ⟨"4".toList, rfl⟩
  word := by intro a; cases a <;> decide +kernel

theorem demo_loaded (nCores : Option Nat) (c : Ini) (hg : GoodIni c) (he : Editable "num_cores".toList c) (sec : Str)
    (hc : lookup (loaded c) sec "num_cores".toList = some (some ["4".toList])) :
    ∃ c', readIni (linesOf (demoEdit (demoCores nCores) (unlines (writeIni c)))) = .ok c' ∧
      (∃ t, lookup c' sec "num_cores".toList = some (some [t]) ∧
        pyInt t = .ok (if 2 ≤ demoCores nCores then (demoCores nCores : Int) else 4)) ∧
      ∀ s k, ¬ "num_cores".toList <:+: k → lookup c' s k = lookup (loaded c) s k := by
  by_cases h : 2 ≤ demoCores nCores
  · obtain ⟨k, hk⟩ : ∃ k, k = demoCores nCores := ⟨_, rfl⟩
    rw [← hk] at h ⊢
    have hn : '\n' ∉ natStr k := fun hm => absurd (natStr_isDigit k _ hm) (by decide)
    have hs : strip (natStr k) = natStr k := by
      apply strip_eq_self
      intro c hc
      have := natStr_isDigit k c hc
      cases hw : isWs c with
      | false => rfl
      | true =>
        simp only [isWs, Bool.or_eq_true, beq_iff_eq] at hw
        rcases hw with ((((rfl | rfl) | rfl) | rfl) | rfl) | rfl <;> revert this <;> decide
    refine ⟨loaded (editIni "num_cores".toList (natStr k) c), ?_, ⟨natStr k, ?_, ?_⟩, ?_⟩
    · rw [demoEdit, if_pos (by omega), edit_file _ _ (by decide) hn c he]
      exact C55_round_trip _ (goodIni_edit _ _ c hg)
    · rw [lookup_edit _ _ (by decide) (by decide) hs, if_pos List.infix_rfl, hc]
      rfl
    · rw [if_pos h]; exact pyInt_natStr k
    · intro s key hkey
      rw [lookup_edit _ _ (by decide) (by decide) hs, if_neg hkey]
  · have h1 : demoCores nCores = 1 := by
      unfold demoCores at *
      rcases nCores with _ | k
      · rfl
      · simp only at h ⊢
        split_ifs at h ⊢ with hk
        · omega
        · rfl
    refine ⟨loaded c, ?_, ⟨_, hc, ?_⟩, fun _ _ _ => rfl⟩
    · rw [h1, demoEdit, if_neg (by simp), linesOf_unlines _ he.lines]
      exact C55_round_trip c hg
    · rw [if_neg h]
      rfl

/-- The configuration of the demo as the data extraction sees it. -/
def demoCfg : Cfg
  | .imgDir => some "../image_data/".toList
  | .imgName => some "V001_Cam01_{}.CR2".toList
  | .timeRefId => none
  | .timeRefFile => some "None".toList
  | .timeRefTime => some "None".toList
  | .date => some "27.11.2018".toList
  | .exifDiff => some "-1".toList
  | .refImg => some "1".toList
  | .maxLeds => some "1000".toList
  | .firstExp => some "1".toList
  | .lastExp => some "275".toList
  | .numArrays => some "7".toList

theorem demo_cfg (c : Ini) (h : ∀ s k, ¬ "num_cores".toList <:+: k → lookup c s k = lookup (loaded demoConfig) s k) :
    cfgOf c = demoCfg := by
  funext k
  unfold cfgOf
  rw [h _ _ (by cases k <;> decide +kernel)]
  cases k <;> rfl

/-- **C116.** With the configuration file of the demo, edited for any number of cores, the data extraction asks no question: not
for the general options, not for the ends of the arrays, not for their coordinates; there is a pair of LEDs and a row of six
coordinates for each of the seven arrays. -/
theorem C116_extraction (nCores : Option Nat) :
    ∃ c, readIni (linesOf (demoEdit (demoCores nCores) (unlines (writeIni demoConfig)))) = .ok c ∧
      coresOf c "analyse_photo".toList = .ok (if 2 ≤ demoCores nCores then (demoCores nCores : Int) else 4) ∧
      (∀ env ans, requestConfig env ans ⟨cfgOf c, cfgOf c, []⟩ = (⟨cfgOf c, cfgOf c, []⟩, none)) ∧
      lookup c "analyse_positions".toList "num_arrays".toList = some (some ["7".toList]) ∧
      (∃ e, lookup c "analyse_positions".toList "led_array_edge_indices".toList = some (some e) ∧
        get2d 2 e = .ok (some [[457, 246], [12, 347], [578, 671], [31, 535], [825, 838], [198, 698], [965, 782]])) ∧
      (∃ e, lookup c "analyse_positions".toList "led_array_edge_coordinates".toList = some (some e) ∧
        (rowsOf 6 (e.flatMap splitWs)).length = 7 ∧ (e.flatMap splitWs).length = 42) := by
  have hg : GoodIni demoConfig := by rw [demoConfig_eq]; exact newConfig_good _ demoLines_ok.good
  have he : Editable "num_cores".toList demoConfig := by rw [demoConfig_eq]; exact newConfig_editable _ demoLines_ok
  obtain ⟨c, h1, h2, h3⟩ := demo_loaded nCores demoConfig hg he "analyse_photo".toList rfl
  refine ⟨c, h1, ?_, ?_, ?_, ⟨normLines demoEdges, ?_, ?_⟩, ⟨normLines demoCoordinates, ?_, ?_⟩⟩
  · obtain ⟨t, e1, e2⟩ := h2
    rw [coresOf, e1]
    exact e2
  · intro env ans
    rw [demo_cfg c h3]
    rfl
  · rw [h3 _ _ (by decide +kernel)]; rfl
  · rw [h3 _ _ (by decide +kernel)]; rfl
  · decide +kernel
  · rw [h3 _ _ (by decide +kernel)]; rfl
  · decide +kernel

/-- The values in the analysis configuration of the demo. -/
def demoAnalysisLines : AKey → Str
  | .cameraPosition => "7.29 6.46 2.3".toList
  | .cameraChannels => "0 1 2".toList
  | .domainBounds => "0.99 3.35".toList
  | .ledArrays => "0 1 2 3 4 5 6".toList
  | k => demoAnalysisArgument k

theorem demoAnalysisConfig_eq : demoAnalysisConfig = newAnalysisConfig demoAnalysisLines := rfl

theorem demoAnalysis_editable : Editable "num_cores".toList demoAnalysisConfig where
  lines := by decide +kernel
  header := by decide +kernel
  keys := by
    have h : ∀ s ∈ demoAnalysisConfig, ∀ i ∈ s.2, "num_cores".toList <:+: i.1 → '=' ∉ i.1 ∧ i.2 = some ["4".toList] := by
      decide +kernel
    intro s hs i hi hw
    exact ⟨(h s hs i hi hw).1, _, (h s hs i hi hw).2⟩
  others := by decide +kernel

theorem demo_aCfg (c : Ini) (h : ∀ s k, ¬ "num_cores".toList <:+: k → lookup c s k = lookup (loaded demoAnalysisConfig) s k)
    (k : AKey) (hk : k ≠ .numCores) : aCfgOf c k = some (demoAnalysisLines k) := by
  unfold aCfgOf
  rw [h _ _ (by revert hk; cases k <;> decide +kernel)]
  cases k <;> first | rfl | exact absurd rfl hk

/-- The readings of the numbers in the analysis configuration of the demo. -/
structure DemoFloats {F : Type} (float : Str → Except PyErr F) (lo hi x y z lambda : F) : Prop where
  lo : float "0.99".toList = .ok lo
  hi : float "3.35".toList = .ok hi
  x : float "7.29".toList = .ok x
  y : float "6.46".toList = .ok y
  z : float "2.3".toList = .ok z
  lambda : float "0.001".toList = .ok lambda

/-- **C116.** With the analysis configuration of the demo the analysis starts without a question, for every array and every
channel, with the linear solver; this holds for every way to read decimal numbers that can read the six in the file. -/
theorem C116_analysis {F : Type} (float : Str → Except PyErr F) (lo hi x y z lambda : F)
    (hf : DemoFloats float lo hi x y z lambda) (nCores : Option Nat) :
    ∃ c, readIni (linesOf (demoEdit (demoCores nCores) (unlines (writeIni demoAnalysisConfig)))) = .ok c ∧
      ∀ ans, ∃ s : ASettings F, startAnalysis float ans ⟨aCfgOf c, aCfgOf c, []⟩ = (⟨aCfgOf c, aCfgOf c, []⟩,
          .ok (s, [0, 1, 2, 3, 4, 5, 6].flatMap fun (a : Int) => [0, 1, 2].map fun (k : Int) => (a, k))) ∧
        s.layers = 20 ∧ (s.lo, s.hi) = (lo, hi) ∧ s.cam = (x, y, z) ∧ s.ref = .first 10 ∧ s.params = .linear lambda ∧
        s.cores = if 2 ≤ demoCores nCores then (demoCores nCores : Int) else 4 := by
  have hg : GoodIni demoAnalysisConfig := by rw [demoAnalysisConfig_eq]; exact newAnalysisConfig_good _
  obtain ⟨c, h1, h2, h3⟩ := demo_loaded nCores demoAnalysisConfig hg demoAnalysis_editable "DEFAULT".toList rfl
  refine ⟨c, h1, fun ans => ?_⟩
  have hk := demo_aCfg c h3
  have ha : IsList pyInt (aCfgOf c .ledArrays) [0, 1, 2, 3, 4, 5, 6] := by
    rw [hk _ (by decide)]; exact (listValue_some _ _ _).1 (by decide +kernel)
  have hch : IsList pyInt (aCfgOf c .cameraChannels) [0, 1, 2] := by
    rw [hk _ (by decide)]; exact (listValue_some _ _ _).1 (by decide +kernel)
  have hb : IsList float (aCfgOf c .domainBounds) [lo, hi] := by
    rw [hk _ (by decide)]
    refine ⟨_, rfl, by decide, by decide, ?_⟩
    rw [show splitWs (demoAnalysisLines .domainBounds) = ["0.99".toList, "3.35".toList] by decide]
    exact .cons hf.lo (.cons hf.hi .nil)
  have hp : IsList float (aCfgOf c .cameraPosition) [x, y, z] := by
    rw [hk _ (by decide)]
    refine ⟨_, rfl, by decide, by decide, ?_⟩
    rw [show splitWs (demoAnalysisLines .cameraPosition) = ["7.29".toList, "6.46".toList, "2.3".toList] by decide]
    exact .cons hf.x (.cons hf.y (.cons hf.z .nil))
  have hno : ∀ {α : Type} {conv : Str → Except PyErr α} {v : Option Str} {l : List α}, IsList conv v l → ¬ NoList conv v := by
    intro α conv v l h h'
    rw [← listValue_none] at h'
    rw [← listValue_some, h'] at h
    cases h
  have hm : ∀ k, ¬ MissingOpt float (aCfgOf c) k := by
    intro k h
    cases k <;> first | exact h | exact hno ha h | exact hno hb h | exact hno hp h
  have hq : questionsFor float (aCfgOf c) = [] := by
    unfold questionsFor
    rw [List.filter_eq_nil_iff]
    intro k _
    simpa using hm k
  have han : answered float ans (aCfgOf c) = aCfgOf c := by
    funext k
    unfold answered
    rw [if_neg (hm k)]
  obtain ⟨t, ht, hcores⟩ : ∃ t, aCfgOf c .numCores = some t ∧
      pyInt t = .ok (if 2 ≤ demoCores nCores then (demoCores nCores : Int) else 4) := by
    obtain ⟨t, e1, e2⟩ := h2
    refine ⟨t, ?_, e2⟩
    unfold aCfgOf
    rw [show (aKeyName .numCores).1 = "DEFAULT".toList from rfl, show (aKeyName .numCores).2 = "num_cores".toList from rfl, e1]
  refine ⟨⟨20, lo, hi, (x, y, z), some [0, 1, 2], some [0, 1, 2, 3, 4, 5, 6], .first 10, "linear".toList, .linear lambda,
    "sum_col_val".toList, _⟩, (C99_started_iff_partial float ans _ _ _ _ _).2 ⟨?_, ?_, ?_, ?_, [0, 1, 2, 3, 4, 5, 6], [0, 1, 2], ?_, rfl⟩, rfl, rfl, rfl, rfl, rfl, rfl⟩
  · intro k hk; rw [hq] at hk; cases hk
  · exact han.symm
  · exact hq.symm
  · rw [if_pos hq]
  · rw [han]
    exact {
      layers := ⟨_, hk _ (by decide), rfl⟩
      layers_ge := show (-1 : Int) ≤ 20 by decide
      channels := ⟨rfl, hch⟩
      arrays := ⟨rfl, ha⟩
      ref := ⟨by rw [hk _ (by decide)]; exact (listValue_none _ _).1 (by decide), _, hk _ (by decide), by decide⟩
      solver := hk _ (by decide)
      params := ⟨rfl, _, hk _ (by decide), hf.lambda⟩
      property := hk _ (by decide)
      bounds := hb
      cam := hp
      cores := ⟨t, ht, hcores⟩ }

/-- **C116.** The demo runs the steps in order: search areas, arrays, fast extraction in all three channels, coordinates,
analysis. -/
theorem C116_steps : demoRunActs demoCommands =
    ([.extractor false [0] true, .findAreas, .extractor false [0] true, .matchArrays, .extractor true [0, 1, 2] false, .setupStep3,
      .process [0, 1, 2] false, .coordinates, .extinction], none) := by
  decide +kernel

end Ledsa
