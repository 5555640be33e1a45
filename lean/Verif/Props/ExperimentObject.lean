import Verif.Model.ExperimentObject
import Verif.Props.Binary
import Verif.Props.AnalysisConfig

/-!
# C144: the LEDs of an experiment object

Specification: `Placed rows ids leds` says that the LEDs are those with the given ids, in order, each at the position in the row of
its number.
-/

namespace Ledsa

/-- The LEDs have the given ids, and each has the position in the columns 3 to 5 of the row of its number. -/
def Placed (rows : List (List ℚ)) (ids : List ℕ) (leds : List (ℕ × ℚ × ℚ × ℚ)) : Prop :=
  leds.map (·.1) = ids ∧ ∀ i x y z, (i, x, y, z) ∈ leds → ∃ a b c rest, rows[i]? = some (a :: b :: c :: x :: y :: z :: rest)

/-- **C144.** With the files of an array with at least two LEDs and of the coordinates, the experiment has exactly the LEDs of the
file that is meant by the argument, at their positions. The file is that of the merged arrays unless the argument is the text
`None`. -/
theorem C144_leds_partial (dir : AnalysisDir) (array : ℕ) (merge : MergeArg) (ids : List ℕ) (rows : List (List ℚ)) (k : ℕ)
    (hf : dir (indexFileName array (if merge = .text "None".toList then [] else "_merge".toList)) = some (asIds ids))
    (hc : dir "led_search_areas_with_coordinates.csv".toList = some rows)
    (h2 : 2 ≤ ids.length) (hr : 2 ≤ rows.length) (hk : ∀ r ∈ rows, r.length = k + 6) (hi : ∀ i ∈ ids, i < rows.length) :
    ∃ leds, newExperiment dir array merge = .ok ⟨leds, some ids.length⟩ ∧ Placed rows ids leds ∧
      ∀ {D : Type} (dist : ℚ × ℚ × ℚ → D),
        distancesOf dist ⟨leds, some ids.length⟩ = .ok ((leds.map fun l => dist l.2).reverse) := by
  obtain ⟨leds, h, h1, h3⟩ := C78_array_partial ids rows k h2 hr hk hi
  have hsuf : mergeSuffix merge = if merge = .text "None".toList then [] else "_merge".toList := by
    unfold mergeSuffix
    by_cases hm : merge = .text "None".toList
    · rw [if_pos hm, if_neg (by simpa using hm)]
    · rw [if_neg hm, if_pos hm]
  have hlen : leds.length = ids.length := by rw [← h1]; simp
  refine ⟨leds, ?_, ⟨h1, h3⟩, ?_⟩
  · unfold newExperiment setLedsFrom coordinatesName
    rw [hsuf, hf, hc]
    simp only
    rw [h]
    simp only
    rw [hlen]
  · intro D dist
    unfold distancesOf
    rw [List.map_reverse]

/-- **C144.** Nothing but the two files matters: arrays and other files do not change the LEDs of an experiment. -/
theorem C144_only_its_files (d d' : AnalysisDir) (array : ℕ) (merge : MergeArg)
    (h1 : d (indexFileName array (if merge = .text "None".toList then [] else "_merge".toList)) =
      d' (indexFileName array (if merge = .text "None".toList then [] else "_merge".toList)))
    (h2 : d "led_search_areas_with_coordinates.csv".toList = d' "led_search_areas_with_coordinates.csv".toList) :
    newExperiment d array merge = newExperiment d' array merge := by
  have hsuf : mergeSuffix merge = if merge = .text "None".toList then [] else "_merge".toList := by
    unfold mergeSuffix
    by_cases hm : merge = .text "None".toList
    · rw [if_pos hm, if_neg (by simpa using hm)]
    · rw [if_neg hm, if_pos hm]
  unfold newExperiment setLedsFrom coordinatesName
  rw [hsuf, h1, h2]

/-- Refuted for the default of the argument, which says that arrays are not merged: the file of merged arrays is read. If arrays were
never merged the object has no LEDs, whatever the files of the arrays contain. -/
theorem C144_default_false (dir : AnalysisDir) (array : ℕ) (h : dir (indexFileName array "_merge".toList) = none) :
    newExperiment dir array .default = .ok ⟨[], none⟩ := by
  unfold newExperiment setLedsFrom MergeArg.default mergeSuffix
  rw [if_pos (by decide), h]

/-- Refuted: a missing file is not reported as an error. The object is made without LEDs, and the calculation of the distances
stops with a `TypeError`. -/
theorem C144_missing_false (dir : AnalysisDir) (array : ℕ) (merge : MergeArg)
    (h : dir (indexFileName array (mergeSuffix merge)) = none ∨ dir coordinatesName = none) {D : Type} (dist : ℚ × ℚ × ℚ → D) :
    newExperiment dir array merge = .ok ⟨[], none⟩ ∧ (newExperiment dir array merge).bind (distancesOf dist) = .error .typeError := by
  have : newExperiment dir array merge = .ok ⟨[], none⟩ := by
    unfold newExperiment setLedsFrom
    rcases h with h | h
    · rw [h]
    · cases dir (indexFileName array (mergeSuffix merge)) with
      | none => rfl
      | some ids => simp only; rw [h]
  refine ⟨this, ?_⟩
  rw [this]
  rfl

theorem mapM_error_of {α β : Type} (f : α → Except PyErr β) (e : PyErr) (hf : ∀ a e', f a = .error e' → e' = e) :
    ∀ (l : List α) (e' : PyErr), l.mapM f = .error e' → e' = e
  | [], e', h => by cases h
  | a :: l, e', h => by
    rw [List.mapM_cons] at h
    cases ha : f a with
    | error x =>
      rw [ha] at h
      have := Except.error.inj h
      rw [← this]
      exact hf a x ha
    | ok b =>
      rw [ha] at h
      simp only [bind, Except.bind] at h
      cases hl : l.mapM f with
      | error x =>
        rw [hl] at h
        have := Except.error.inj h
        rw [← this]
        exact mapM_error_of f e hf l x hl
      | ok bs => rw [hl] at h; cases h

/-- Files that are there are never reported as missing. -/
theorem setLeds_found (ids rows : List (List ℚ)) : setLeds ids rows ≠ .error .fileNotFound := by
  have hl : ∀ r : List (List ℚ), loadtxt r ≠ .error .fileNotFound := by
    intro r h
    unfold loadtxt at h
    split at h
    · cases h
    · split at h
      · split at h <;> cases h
      · cases h
  have hp : ∀ a l, arrayPositions a l ≠ .error .fileNotFound := by
    intro a l h
    unfold arrayPositions at h
    split at h
    · split at h
      · cases h
      · have := mapM_error_of _ .indexError ?_ l _ h
        · cases this
        · intro i e' he
          split at he
          · exact (Except.error.inj he).symm
          · split at he
            · cases he
            · exact (Except.error.inj he).symm
    · cases h
  intro h
  unfold setLeds at h
  simp only [bind, Except.bind] at h
  cases h1 : loadtxt ids with
  | error e =>
    rw [h1] at h
    exact hl ids (h1.trans (congrArg _ (Except.error.inj h)))
  | ok a =>
    rw [h1] at h
    cases a with
    | scalar x => cases h
    | mat m => cases h
    | vec v =>
      simp only at h
      cases h2 : loadtxt rows with
      | error e =>
        rw [h2] at h
        exact hl rows (h2.trans (congrArg _ (Except.error.inj h)))
      | ok c =>
        rw [h2] at h
        simp only at h
        cases h3 : arrayPositions c (v.map fun x => ⌊x⌋.toNat) with
        | error e =>
          rw [h3] at h
          exact hp _ _ (h3.trans (congrArg _ (Except.error.inj h)))
        | ok ps => rw [h3] at h; cases h

/-- **C144.** An experiment is made without LEDs exactly if a file is missing. -/
theorem C144_missing_iff (dir : AnalysisDir) (array : ℕ) (merge : MergeArg) :
    newExperiment dir array merge = .ok ⟨[], none⟩ ↔
      dir (indexFileName array (mergeSuffix merge)) = none ∨ dir coordinatesName = none := by
  constructor
  · intro h
    by_contra hc
    rw [not_or] at hc
    obtain ⟨a, ha⟩ := Option.ne_none_iff_exists'.1 hc.1
    obtain ⟨b, hb⟩ := Option.ne_none_iff_exists'.1 hc.2
    have hs : setLedsFrom dir array merge = setLeds a b := by
      unfold setLedsFrom; rw [ha, hb]
    have hf := setLeds_found a b
    unfold newExperiment at h
    rw [hs] at h
    cases hx : setLeds a b with
    | ok l => rw [hx] at h; simp at h
    | error e =>
      rw [hx] at h hf
      cases e <;> first | exact hf rfl | cases h
  · intro h
    exact (C144_missing_false dir array merge h (fun x => x)).1

/-- Refuted: without `config.ini` the analysis asks all questions and saves the answers as if everything were there, and then stops
with a `KeyError`. -/
theorem C144_config_false {F : Type} (float : Str → Except PyErr F) (ans : List AKey → AKey → Str) (w w' : AWorld) (s : ASettings F)
    (h : loadParameters float ans w = (w', .ok s)) : loadExperimentData float ans none w = (w', .error .keyError) := by
  unfold loadExperimentData AProg.andThen
  rw [h]
  rfl

/-- **C144.** With `config.ini` the settings and the option for merging are those of the files. -/
theorem C144_loaded {F : Type} (float : Str → Except PyErr F) (ans : List AKey → AKey → Str) (v : Str) (w w' : AWorld)
    (s : ASettings F) (m : MergeArg) : loadExperimentData float ans (some (some v)) w = (w', .ok (s, m)) ↔
      loadParameters float ans w = (w', .ok s) ∧ m = .text v := by
  unfold loadExperimentData AProg.andThen
  rcases loadParameters float ans w with ⟨w1, r⟩
  cases r with
  | error e => simp
  | ok s1 =>
    simp only [AProg.pure, mergeOption, Prod.mk.injEq, Except.ok.injEq]
    constructor
    · rintro ⟨rfl, rfl, rfl⟩; exact ⟨⟨rfl, rfl⟩, rfl⟩
    · rintro ⟨⟨rfl, rfl⟩, rfl⟩; exact ⟨rfl, rfl, rfl⟩

/-! ### Examples -/

/-- Array 0 has the LEDs 1 and 0; nothing was merged. -/
def plainDir : AnalysisDir := fun n =>
  if n = "led_array_indices_000.csv".toList then some [[1], [0]]
  else if n = "led_search_areas_with_coordinates.csv".toList then some [[0, 5, 6, 1, 2, 3], [1, 7, 8, 1, 2, 4]]
  else none

example : newExperiment plainDir 0 (.text "None".toList) = .ok ⟨[(1, 1, 2, 4), (0, 1, 2, 3)], some 2⟩ := by decide +kernel
example : newExperiment plainDir 0 .default = .ok ⟨[], none⟩ := by decide +kernel

end Ledsa
