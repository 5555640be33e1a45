import Verif.Model.SetupKill
import Verif.Props.DemoSetup

/-!
# A setup of the demo that was stopped (C189)

Specification: `DemoImages` says what is in the image directory after a setup: every image under its name, nothing of the archive, everything
else as before.
-/

namespace Ledsa

/-- The names that a setup uses in the image directory. -/
def SetupTouches (zipName r : Str) (files : List ZipFile) (q : Str) : Prop :=
  q = zipName ∨ q ∈ files.map ZipFile.name ∨ q ∈ files.map ZipFile.path ∨ r ++ ['/'] <+: q

/-- The image directory `d'` after a setup that found `d`. -/
structure DemoImages (zipName r : Str) (files : List ZipFile) (d d' : ImgDir) : Prop where
  image : ∀ f ∈ files, d' f.name = some f.content
  rest : ∀ q, SetupTouches zipName r files q → q ∉ files.map ZipFile.name → d' q = none
  others : ∀ q, ¬ SetupTouches zipName r files q → d' q = d q

/-- The images of a setup are determined by what is elsewhere. -/
theorem demoImages_unique {zipName r : Str} {files : List ZipFile} {d1 d2 e1 e2 : ImgDir} (h1 : DemoImages zipName r files d1 e1)
    (h2 : DemoImages zipName r files d2 e2) (h : ∀ q, ¬ SetupTouches zipName r files q → d1 q = d2 q) : e1 = e2 := by
  funext q
  by_cases hq : SetupTouches zipName r files q
  · by_cases hn : q ∈ files.map ZipFile.name
    · obtain ⟨f, hf, rfl⟩ := List.mem_map.1 hn
      rw [h1.image f hf, h2.image f hf]
    · rw [h1.rest q hq hn, h2.rest q hq hn]
  · rw [h1.others q hq, h2.others q hq, h q hq]

/-- The steps for the archive of C118: a folder and files. -/
def archiveSteps (zipName zip r c0 : Str) (files : List ZipFile) : List SetupStep :=
  setupSteps zipName zip (r ++ ['/']) ((r ++ ['/'], c0) :: files.map ZipFile.member)

theorem runSetup_append (a b : List SetupStep) (d : SetupDisk) : runSetup (a ++ b) d = runSetup b (runSetup a d) := by
  unfold runSetup; rw [List.foldl_append]

theorem writeSteps_run (p content : Str) (d : SetupDisk) :
    runSetup (writeSteps p content) d = { d with images := d.images.put p content } := by
  have key : ∀ (c pre : Str) (d : SetupDisk), d.images p = some pre →
      runSetup (c.map (.append p)) d = { d with images := d.images.put p (pre ++ c) } := by
    intro c
    induction c with
    | nil =>
      intro pre d h
      have : d.images.put p (pre ++ []) = d.images := by
        funext q
        simp only [ImgDir.put, List.append_nil]
        split
        · rename_i hq; rw [hq, h]
        · rfl
      rw [this]; rfl
    | cons x c ih =>
      intro pre d h
      have : runSetup ((x :: c).map (.append p)) d = runSetup (c.map (.append p)) (SetupStep.run d (.append p x)) := rfl
      rw [this, ih (pre ++ [x])]
      · simp only [SetupStep.run, List.append_assoc, List.cons_append, List.nil_append]
        congr 1
        funext q
        simp only [ImgDir.put]
        split <;> rfl
      · simp [SetupStep.run, ImgDir.put, h]
  have : runSetup (writeSteps p content) d = runSetup (content.map (.append p)) (SetupStep.run d (.create p)) := rfl
  rw [this, key content [] _ (by simp [SetupStep.run, ImgDir.put])]
  simp only [SetupStep.run, List.nil_append]
  congr 1
  funext q
  simp only [ImgDir.put]
  split <;> rfl

theorem memberSteps_run (first : Str) (f : ZipFile) (hf : f.path ≠ first) (d : SetupDisk) (d' : ImgDir)
    (h : unpackMember d.images f.member = some d') : runSetup (memberSteps first f.member) d = { d with images := d' } := by
  unfold memberSteps
  rw [if_pos (show f.member.1 ≠ first from hf), runSetup_append, writeSteps_run]
  unfold unpackMember at h
  rw [if_neg (by rw [show f.member.1 = f.path from rfl, baseName_path]; exact f.isName.1)] at h
  rw [← Option.some.inj h]
  rfl

theorem membersSteps_run (first : Str) : ∀ (files : List ZipFile) (d : SetupDisk) (d' : ImgDir), (∀ f ∈ files, f.path ≠ first) →
    unpackAll first (files.map ZipFile.member) d.images = some d' →
    runSetup ((files.map ZipFile.member).flatMap (memberSteps first)) d = { d with images := d' }
  | [], d, d', _, h => by
    have : d.images = d' := Option.some.inj h
    rw [← this]; rfl
  | f :: fs, d, d', hf, h => by
    obtain ⟨d1, h1, -⟩ := unpackMember_eq d.images f
    rw [List.map_cons, unpackAll.eq_def] at h
    simp only at h
    rw [if_pos (show f.member.1 ≠ first from hf f (by simp)), h1] at h
    rw [List.map_cons, List.flatMap_cons, runSetup_append, memberSteps_run first f (hf f (by simp)) d d1 h1,
      membersSteps_run first fs _ d' (fun g hg => hf g (List.mem_cons_of_mem _ hg)) h]

theorem path_ne_folder (r : Str) (f : ZipFile) : f.path ≠ r ++ ['/'] := by
  intro h
  have := baseName_path f
  rw [h, baseName_folder] at this
  exact f.isName.1 this.symm

/-- **C189, complete.** A setup that is not stopped leaves the images, the marker and the configuration files. -/
theorem C189_complete (zipName zip r c0 : Str) (files : List ZipFile) (d : SetupDisk) (hd : (zipName :: files.map ZipFile.name).Nodup) :
    let e := runSetup (archiveSteps zipName zip r c0 files) d
    DemoImages zipName r files d.images e.images ∧ e.marker = true ∧ e.config = true ∧ e.analysis = true := by
  obtain ⟨d', h1, h2, h3, h4, h5, h6⟩ := C118_partial zipName zip r c0 files d.images hd
  have hrun : runSetup (archiveSteps zipName zip r c0 files) d = ⟨d', true, true, true⟩ := by
    rw [extractImages.eq_def] at h1
    simp only at h1
    rw [unpackAll.eq_def] at h1
    simp only at h1
    rw [if_neg (by simp)] at h1
    cases hu : unpackAll (r ++ ['/']) (files.map ZipFile.member) (d.images.put zipName zip) with
    | none => rw [hu] at h1; cases h1
    | some d1 =>
      rw [hu] at h1
      unfold archiveSteps setupSteps
      rw [runSetup_append, runSetup_append, writeSteps_run, List.flatMap_cons,
        show memberSteps (r ++ ['/']) (r ++ ['/'], c0) = [] from by unfold memberSteps; rw [if_neg (by simp)], List.nil_append,
        membersSteps_run (r ++ ['/']) files { d with images := d.images.put zipName zip } d1 (fun f _ => path_ne_folder r f) hu,
        ← Option.some.inj h1]
      rfl
  intro e
  have he : e = ⟨d', true, true, true⟩ := hrun
  rw [he]
  refine ⟨⟨h2, ?_, ?_⟩, rfl, rfl, rfl⟩
  · rintro q (hq | hq | hq | hq) hn
    · rw [hq]; exact h3
    · exact absurd hq hn
    · obtain ⟨f, hf, rfl⟩ := List.mem_map.1 hq
      refine h4 f hf fun h0 => hn ?_
      have : f.path = f.name := by unfold ZipFile.path; rw [h0]; rfl
      rw [this]
      exact List.mem_map_of_mem hf
    · exact h5 q hq
  · intro q hq
    unfold SetupTouches at hq
    simp only [not_or] at hq
    exact h6 q hq.1 hq.2.1 hq.2.2.1 hq.2.2.2

/-- A step that changes only names of the setup. -/
def SetupStep.Inside (P : Str → Prop) : SetupStep → Prop
  | .create p => P p
  | .append p _ => P p
  | .move p p' => P p ∧ P p'
  | .delete p => P p
  | .removeTree p => ∀ q, p <+: q → P q
  | _ => True

theorem inside_run (P : Str → Prop) (s : SetupStep) (hs : s.Inside P) (d : SetupDisk) (q : Str) (hq : ¬ P q) :
    (SetupStep.run d s).images q = d.images q := by
  cases s with
  | create p =>
    simp only [SetupStep.run, ImgDir.put]
    rw [if_neg (fun h : q = p => hq (by rw [h]; exact hs))]
  | append p c =>
    simp only [SetupStep.run, ImgDir.put]
    rw [if_neg (fun h : q = p => hq (by rw [h]; exact hs))]
  | move p p' =>
    simp only [SetupStep.run, ImgDir.move]
    cases d.images p with
    | none => rfl
    | some c =>
      simp only [ImgDir.put, ImgDir.del]
      rw [if_neg (fun h : q = p' => hq (by rw [h]; exact hs.2)), if_neg (fun h : q = p => hq (by rw [h]; exact hs.1))]
  | delete p =>
    simp only [SetupStep.run, ImgDir.del]
    rw [if_neg (fun h : q = p => hq (by rw [h]; exact hs))]
  | removeTree p =>
    simp only [SetupStep.run, removeTree]
    split
    · simp only
      rw [if_neg (fun h => hq (hs q (List.isPrefixOf_iff_prefix.1 h)))]
    · rfl
  | mark => rfl
  | config => rfl
  | analysis => rfl

theorem archiveSteps_inside (zipName zip r c0 : Str) (files : List ZipFile) :
    ∀ s ∈ archiveSteps zipName zip r c0 files, s.Inside (SetupTouches zipName r files) := by
  have hw : ∀ p content, SetupTouches zipName r files p → ∀ s ∈ writeSteps p content, s.Inside (SetupTouches zipName r files) := by
    intro p content hp s hs
    unfold writeSteps at hs
    rw [List.mem_cons, List.mem_map] at hs
    rcases hs with rfl | ⟨c, _, rfl⟩ <;> exact hp
  intro s hs
  unfold archiveSteps setupSteps at hs
  rw [List.mem_append, List.mem_append] at hs
  rcases hs with (hs | hs) | hs
  · exact hw _ _ (.inl rfl) s hs
  · rw [List.flatMap_cons, List.mem_append, List.mem_flatMap] at hs
    rcases hs with hs | ⟨m, hm, hs⟩
    · unfold memberSteps at hs
      rw [if_neg (by simp)] at hs
      cases hs
    · obtain ⟨f, hf, rfl⟩ := List.mem_map.1 hm
      have hp : SetupTouches zipName r files f.path := .inr (.inr (.inl (List.mem_map_of_mem hf)))
      unfold memberSteps at hs
      rw [if_pos (show f.member.1 ≠ _ from path_ne_folder r f), List.mem_append] at hs
      rcases hs with hs | hs
      · exact hw _ _ hp s hs
      · rw [List.mem_singleton] at hs
        subst hs
        refine ⟨hp, ?_⟩
        rw [show f.member.1 = f.path from rfl, baseName_path]
        exact .inr (.inl (List.mem_map_of_mem hf))
  · simp only [List.mem_cons, List.not_mem_nil, or_false] at hs
    rcases hs with rfl | rfl | rfl | rfl | rfl
    · exact .inl rfl
    · exact fun q hq => .inr (.inr (.inr hq))
    all_goals trivial

theorem inside_all (P : Str → Prop) : ∀ (steps : List SetupStep) (d : SetupDisk), (∀ s ∈ steps, s.Inside P) → ∀ q, ¬ P q →
    (runSetup steps d).images q = d.images q
  | [], _, _, _, _ => rfl
  | s :: t, d, h, q, hq => by
    have : runSetup (s :: t) d = runSetup t (SetupStep.run d s) := rfl
    rw [this, inside_all P t _ (fun x hx => h x (List.mem_cons_of_mem _ hx)) q hq, inside_run P s (h s (by simp)) d q hq]

/-- **C189, repeated.** However often the setup was stopped, and wherever, a complete setup leaves exactly what it would have left without the earlier
attempts. -/
theorem C189_repeat (zipName zip r c0 : Str) (files : List ZipFile) (hd : (zipName :: files.map ZipFile.name).Nodup)
    (attempts : List (List SetupStep)) (h : ∀ a ∈ attempts, a <+: archiveSteps zipName zip r c0 files) (d : SetupDisk) :
    runSetup (archiveSteps zipName zip r c0 files) (attempts.foldl (fun d a => runSetup a d) d) =
      runSetup (archiveSteps zipName zip r c0 files) d := by
  have hkeep : ∀ (attempts : List (List SetupStep)), (∀ a ∈ attempts, a <+: archiveSteps zipName zip r c0 files) → ∀ (d : SetupDisk) q,
      ¬ SetupTouches zipName r files q → (attempts.foldl (fun d a => runSetup a d) d).images q = d.images q := by
    intro attempts
    induction attempts with
    | nil => intro _ d q _; rfl
    | cons a t ih =>
      intro ha d q hq
      rw [List.foldl_cons, ih (fun x hx => ha x (List.mem_cons_of_mem _ hx)) _ q hq]
      exact inside_all _ a d (fun s hs => archiveSteps_inside zipName zip r c0 files s ((ha a (by simp)).subset hs)) q hq
  obtain ⟨a1, a2, a3, a4⟩ := C189_complete zipName zip r c0 files (attempts.foldl (fun d a => runSetup a d) d) hd
  obtain ⟨b1, b2, b3, b4⟩ := C189_complete zipName zip r c0 files d hd
  have := demoImages_unique a1 b1 (hkeep attempts h d)
  revert this a2 a3 a4 b2 b3 b4
  generalize runSetup (archiveSteps zipName zip r c0 files) (attempts.foldl (fun d a => runSetup a d) d) = x
  generalize runSetup (archiveSteps zipName zip r c0 files) d = y
  intro a2 a3 a4 b2 b3 b4 h
  cases x
  cases y
  simp_all

/-! ### What the marker says -/

/-- The steps before the marker. -/
def stepsBeforeMark (zipName zip r c0 : Str) (files : List ZipFile) : List SetupStep :=
  writeSteps zipName zip ++ ((r ++ ['/'], c0) :: files.map ZipFile.member).flatMap (memberSteps (r ++ ['/'])) ++
    [.delete zipName, .removeTree (r ++ ['/'])]

theorem archiveSteps_split (zipName zip r c0 : Str) (files : List ZipFile) :
    archiveSteps zipName zip r c0 files = stepsBeforeMark zipName zip r c0 files ++ [.mark, .config, .analysis] := by
  simp [archiveSteps, setupSteps, stepsBeforeMark]

theorem before_keeps (zipName zip r c0 : Str) (files : List ZipFile) (pre : List SetupStep) (h : pre <+: stepsBeforeMark zipName zip r c0 files)
    (d : SetupDisk) : (runSetup pre d).marker = d.marker ∧ (runSetup pre d).config = d.config ∧ (runSetup pre d).analysis = d.analysis := by
  have hw : ∀ p content, ∀ s ∈ writeSteps p content, ∀ d, (SetupStep.run d s).marker = d.marker ∧ (SetupStep.run d s).config = d.config ∧
      (SetupStep.run d s).analysis = d.analysis := by
    intro p content s hs d
    unfold writeSteps at hs
    rw [List.mem_cons, List.mem_map] at hs
    rcases hs with rfl | ⟨c, _, rfl⟩ <;> exact ⟨rfl, rfl, rfl⟩
  have hall : ∀ s ∈ stepsBeforeMark zipName zip r c0 files, ∀ d, (SetupStep.run d s).marker = d.marker ∧
      (SetupStep.run d s).config = d.config ∧ (SetupStep.run d s).analysis = d.analysis := by
    intro s hs d
    unfold stepsBeforeMark at hs
    rw [List.mem_append, List.mem_append, List.mem_flatMap] at hs
    rcases hs with (hs | ⟨m, _, hs⟩) | hs
    · exact hw _ _ s hs d
    · unfold memberSteps at hs
      split at hs
      · rw [List.mem_append, List.mem_singleton] at hs
        rcases hs with hs | rfl
        · exact hw _ _ s hs d
        · exact ⟨rfl, rfl, rfl⟩
      · cases hs
    · simp only [List.mem_cons, List.not_mem_nil, or_false] at hs
      rcases hs with rfl | rfl <;> exact ⟨rfl, rfl, rfl⟩
  have key : ∀ (l : List SetupStep) (d : SetupDisk), (∀ s ∈ l, s ∈ stepsBeforeMark zipName zip r c0 files) →
      (runSetup l d).marker = d.marker ∧ (runSetup l d).config = d.config ∧ (runSetup l d).analysis = d.analysis := by
    intro l
    induction l with
    | nil => intro d _; exact ⟨rfl, rfl, rfl⟩
    | cons s t ih =>
      intro d hl
      obtain ⟨i1, i2, i3⟩ := ih (SetupStep.run d s) (fun x hx => hl x (List.mem_cons_of_mem _ hx))
      obtain ⟨j1, j2, j3⟩ := hall s (hl s (by simp)) d
      exact ⟨i1.trans j1, i2.trans j2, i3.trans j3⟩
  exact key pre d fun s hs => h.subset hs

/-- **C189, marker, partial.** Where no demo was set up before, the marker is only there if all images are, and the configuration of the analysis only if
everything is complete. Missing (and false): the marker does not say that the configuration files are there. -/
theorem C189_marker_partial (zipName zip r c0 : Str) (files : List ZipFile) (hd : (zipName :: files.map ZipFile.name).Nodup) (d : SetupDisk)
    (h0 : d.marker = false ∧ d.config = false ∧ d.analysis = false) (pre : List SetupStep) (hp : pre <+: archiveSteps zipName zip r c0 files) :
    ((runSetup pre d).marker = true ↔ stepsBeforeMark zipName zip r c0 files ++ [.mark] <+: pre) ∧
    ((runSetup pre d).marker = true → DemoImages zipName r files d.images (runSetup pre d).images) ∧
    ((runSetup pre d).analysis = true → runSetup pre d = runSetup (archiveSteps zipName zip r c0 files) d) := by
  obtain ⟨hc, -⟩ := C189_complete zipName zip r c0 files d hd
  rw [archiveSteps_split] at hp hc ⊢
  generalize hB : stepsBeforeMark zipName zip r c0 files = B at *
  rw [runSetup_append] at hc
  have hBk : (runSetup B d).marker = false ∧ (runSetup B d).analysis = false := by
    have := before_keeps zipName zip r c0 files B (by rw [hB]) d
    rw [this.1, this.2.2]
    exact ⟨h0.1, h0.2.2⟩
  have hcases : pre <+: B ∨ ∃ t, t <+: [SetupStep.mark, .config, .analysis] ∧ pre = B ++ t := by
    rcases List.prefix_or_prefix_of_prefix hp (List.prefix_append B _) with h | ⟨t, rfl⟩
    · exact .inl h
    · exact .inr ⟨t, (List.prefix_append_right_inj B).1 hp, rfl⟩
  rcases hcases with h | ⟨t, ht, rfl⟩
  · obtain ⟨k1, k2, k3⟩ := before_keeps zipName zip r c0 files pre (by rw [hB]; exact h) d
    rw [k1, k3, h0.1, h0.2.2]
    refine ⟨⟨fun h => by (cases h), fun hq => ?_⟩, fun h => by (cases h), fun h => by (cases h)⟩
    have h1 := hq.length_le
    have h2 := h.length_le
    simp at h1
    omega
  · rw [runSetup_append, runSetup_append]
    have ht : t = [] ∨ t = [.mark] ∨ t = [.mark, .config] ∨ t = [.mark, .config, .analysis] := by
      obtain ⟨u, hu⟩ := ht
      match t, hu with
      | [], _ => exact .inl rfl
      | [a], hu => simp at hu; exact .inr (.inl (by rw [hu.1]))
      | [a, b], hu => simp at hu; exact .inr (.inr (.inl (by rw [hu.1, hu.2.1])))
      | [a, b, c], hu => simp at hu; exact .inr (.inr (.inr (by rw [hu.1, hu.2.1, hu.2.2.1])))
      | a :: b :: c :: e :: l, hu => simp at hu
    have hi : (runSetup t (runSetup B d)).images = (runSetup [.mark, .config, .analysis] (runSetup B d)).images := by
      rcases ht with rfl | rfl | rfl | rfl <;> rfl
    refine ⟨?_, fun _ => by rw [hi]; exact hc, fun h => ?_⟩
    · rw [List.prefix_append_right_inj]
      rcases ht with rfl | rfl | rfl | rfl
      · refine ⟨fun h => ?_, fun h => by simp at h⟩
        have : (runSetup ([] : List SetupStep) (runSetup B d)).marker = (runSetup B d).marker := rfl
        rw [this, hBk.1] at h
        cases h
      · exact ⟨fun _ => ⟨[], rfl⟩, fun _ => rfl⟩
      · exact ⟨fun _ => ⟨[.config], rfl⟩, fun _ => rfl⟩
      · exact ⟨fun _ => ⟨[.config, .analysis], rfl⟩, fun _ => rfl⟩
    · rcases ht with rfl | rfl | rfl | rfl
      · exact absurd (hBk.2.symm.trans h) (by decide)
      · exact absurd (hBk.2.symm.trans h) (by decide)
      · exact absurd (hBk.2.symm.trans h) (by decide)
      · rfl

/-- **C189 refuted**: a setup stopped after the marker has no configuration files, although the program says that the demo was set up; if the
user then does not want to overwrite, nothing is done. -/
theorem C189_false (zipName zip r c0 : Str) (files : List ZipFile) (d : SetupDisk) (h0 : d.config = false ∧ d.analysis = false) :
    ∃ pre, pre <+: archiveSteps zipName zip r c0 files ∧ (runSetup pre d).marker = true ∧ (runSetup pre d).config = false ∧
      (runSetup pre d).analysis = false ∧ setupDemo ["yes".toList, "no".toList] (runSetup pre d).marker = ([], .exited) := by
  obtain ⟨k1, k2, k3⟩ := before_keeps zipName zip r c0 files (stepsBeforeMark zipName zip r c0 files) (List.prefix_refl _) d
  refine ⟨stepsBeforeMark zipName zip r c0 files ++ [.mark], ?_, ?_, ?_, ?_, ?_⟩
  · rw [archiveSteps_split, List.prefix_append_right_inj]
    exact ⟨[.config, .analysis], rfl⟩
  all_goals rw [runSetup_append]
  · rfl
  · exact k2.trans h0.1
  · exact k3.trans h0.2
  · rfl

/-- **C189, marker of an earlier setup.** If a demo is set up again the marker is there from the beginning: it says nothing about the second setup. -/
theorem C189_earlier (zipName zip r c0 : Str) (files : List ZipFile) (d : SetupDisk) (h : d.marker = true) (pre : List SetupStep)
    (_ : pre <+: archiveSteps zipName zip r c0 files) : (runSetup pre d).marker = true := by
  have key : ∀ (l : List SetupStep) (d : SetupDisk), d.marker = true → (runSetup l d).marker = true := by
    intro l
    induction l with
    | nil => intro d h; exact h
    | cons s t ih =>
      intro d h
      refine ih _ ?_
      cases s <;> first | exact h | rfl
  exact key pre d h

-- one image; the setup is stopped in the middle of the extraction, then repeated
example : let f : ZipFile := ⟨"i/".toList, "a.CR2".toList, "AB".toList, .inr ⟨"i".toList, rfl⟩, by decide⟩
    let d : SetupDisk := ⟨fun _ => none, false, false, false⟩
    let steps := archiveSteps "i.zip".toList "Z".toList "i".toList [] [f]
    (runSetup (steps.take 4) d).images "i/a.CR2".toList = some "A".toList ∧ (runSetup steps (runSetup (steps.take 4) d)).images "a.CR2".toList =
      some "AB".toList ∧ (runSetup steps (runSetup (steps.take 4) d)).images "i/a.CR2".toList = none := by
  decide +kernel

end Ledsa
