import Verif.Model.AnalysisConfig
import Verif.Props.Config
import Verif.Props.Analysis
import Mathlib.Tactic.Linarith
/-
C98: a new analysis configuration has the given values.
C99: missing parameters of the analysis are asked for.
C100: the option for averaging is used.
-/
namespace Ledsa

/-! ### C98 -/

theorem goodItem_single (v : AKey → Str) (i : Str × Option AKey)
    (h : (match i.2 with
      | none => isComment (strip i.1) || strip i.1 = []
      | some _ => (i.1.take 3).all isWs && decide (3 ≤ i.1.length) && goodNameB (i.1.drop 3)) = true) :
    GoodItem 3 (i.1, i.2.map fun a => [v a]) := by
  obtain ⟨k, _ | a⟩ := i
  · simp only [Bool.or_eq_true, decide_eq_true_eq] at h
    exact GoodItem.comment k h
  · simp only [Bool.and_eq_true, decide_eq_true_eq, List.all_eq_true] at h
    have := GoodItem.option (w := 3) (k.take 3) (k.drop 3) (v a) [] h.1.1 (by simp; exact h.1.2) (goodNameB_spec h.2) (by simp)
    rw [List.take_append_drop] at this
    simpa using this

theorem newAnalysisConfig_good (v : AKey → Str) : GoodIni (newAnalysisConfig v) where
  names := by
    have : (newAnalysisConfig v).map (·.1) = newAnalysisEntries.map (·.1) := by simp [newAnalysisConfig, Function.comp_def]
    rw [this]
    decide +kernel
  header := by
    intro s hs
    obtain ⟨t, ht, rfl⟩ := List.mem_map.1 hs
    have : ∀ t ∈ newAnalysisEntries, t.1 ≠ [] := by decide +kernel
    exact this t ht
  items := by
    intro s hs
    obtain ⟨t, ht, rfl⟩ := List.mem_map.1 hs
    have : ∀ t ∈ newAnalysisEntries, ∀ i ∈ t.2, (match i.2 with
      | none => isComment (strip i.1) || strip i.1 = []
      | some _ => (i.1.take 3).all isWs && decide (3 ≤ i.1.length) && goodNameB (i.1.drop 3)) = true := by decide +kernel
    refine ⟨3, ?_⟩
    intro i hi
    obtain ⟨j, hj, rfl⟩ := List.mem_map.1 hi
    exact goodItem_single v j (this t ht j hj)
  options := by
    intro s hs
    obtain ⟨t, ht, rfl⟩ := List.mem_map.1 hs
    have : ∀ t ∈ newAnalysisEntries, (optionNames t.2).Nodup := by decide +kernel
    have h := this t ht
    rw [optionNames_eq]
    have e : optionNames (t.2.map fun i => (i.1, i.2.map fun a => [v a])) = optionNames t.2 := by
      simp [optionNames, List.filterMap_map, Function.comp_def]
    rw [e]
    exact h

/-- The documented place of every option. -/
def analysisDoc : AKey → String × String
  | .numCores => ("DEFAULT", "num_cores")
  | .refProperty => ("DEFAULT", "reference_property")
  | .numRefImages => ("DEFAULT", "num_ref_images")
  | .refImgIndices => ("DEFAULT", "ref_img_indices")
  | .cameraChannels => ("DEFAULT", "camera_channels")
  | .averageImages => ("DEFAULT", "average_images")
  | .solver => ("DEFAULT", "solver")
  | .weightPref => ("DEFAULT", "weighting_preference")
  | .weightCurv => ("DEFAULT", "weighting_curvature")
  | .numIterations => ("DEFAULT", "num_iterations")
  | .lambdaReg => ("DEFAULT", "lambda_reg")
  | .cameraPosition => ("experiment_geometry", "camera_position")
  | .ledArrays => ("model_parameters", "led_array_indices")
  | .numLayers => ("model_parameters", "num_layers")
  | .domainBounds => ("model_parameters", "domain_bounds")

theorem normLines_text (x : Str) : normLines [x] = [strip x] := by
  rw [normLines, List.map_singleton]
  simp only [List.reverse_singleton, joinLines]
  cases strip x with
  | nil => rfl
  | cons c t => rw [List.dropWhile_cons_of_neg (by simp)]; rfl

theorem analysis_lookup (v : AKey → Str) (k : AKey) :
    lookup (loaded (newAnalysisConfig v)) (analysisDoc k).1.toList (analysisDoc k).2.toList = some (some (normLines [v k])) := by
  cases k <;> rfl

/-- **C98.** Every option of a new configuration file is read back under its documented name, with the value given to the
constructor (without white space around it). Missing: the object that created the file does not have the options
(`C98_object_false`). -/
theorem C98_file_partial (v : AKey → Str) :
    ∃ c, readIni (writeIni (newAnalysisConfig v)) = .ok c ∧
      ∀ k, lookup c (analysisDoc k).1.toList (analysisDoc k).2.toList = some (some [strip (v k)]) ∧
        aCfgOf c k = some (strip (v k)) := by
  refine ⟨_, C55_round_trip _ (newAnalysisConfig_good v), fun k => ⟨?_, ?_⟩⟩
  · rw [analysis_lookup, normLines_text]
  · have h : lookup (loaded (newAnalysisConfig v)) (aKeyName k).1 (aKeyName k).2 = some (some [strip (v k)]) := by
      have := analysis_lookup v k
      rw [normLines_text] at this
      rw [← this]
      cases k <;> rfl
    unfold aCfgOf
    rw [h]

example : ∃ c, readIni (writeIni (newAnalysisConfig fun k => if k = .solver then "nonlinear".toList else "None".toList)) = .ok c ∧
    lookup c "DEFAULT".toList "solver".toList = some (some ["nonlinear".toList]) := by
  obtain ⟨c, h, h'⟩ := C98_file_partial fun k => if k = .solver then "nonlinear".toList else "None".toList
  exact ⟨c, h, (h' .solver).1.trans (by decide)⟩

/-- Refuted: the object that wrote the new configuration knows none of its options, so that
`ExperimentData(load_config_file=False)` always fails with a `KeyError` and without a question. -/
theorem C98_object_false {F : Type} (float : Str → Except PyErr F) (ans : List AKey → AKey → Str) (v : AKey → Str) :
    (∀ k, lookup (newAnalysisConfig v) (analysisDoc k).1.toList (analysisDoc k).2.toList = none) ∧
    (newExperimentData float ans v).2 = .error .keyError ∧ (newExperimentData float ans v).1.asked = [] := by
  refine ⟨?_, ?_, ?_⟩
  · intro k; cases k <;> rfl
  · have : aCfgOf (newAnalysisConfig v) .numLayers = none := rfl
    simp only [newExperimentData, loadParameters, AProg.andThen, getInt, getKey, this]
  · have : aCfgOf (newAnalysisConfig v) .numLayers = none := rfl
    simp only [newExperimentData, loadParameters, AProg.andThen, getInt, getKey, this]

/-! ### Specification for C99 -/

/-- An option that gives a list: its items, separated by white space, are all readable. -/
def IsList {α : Type} (conv : Str → Except PyErr α) (v : Option Str) (l : List α) : Prop :=
  ∃ raw, v = some raw ∧ strip raw ≠ [] ∧ lower (strip raw) ≠ "none".toList ∧
    List.Forall₂ (fun t x => conv t = .ok x) (splitWs raw) l

/-- An option that gives no list: missing, empty, `None`, or with an unreadable item. -/
def NoList {α : Type} (conv : Str → Except PyErr α) (v : Option Str) : Prop :=
  ∀ raw, v = some raw → strip raw = [] ∨ lower (strip raw) = "none".toList ∨ ∃ t ∈ splitWs raw, ∃ e, conv t = .error e

theorem mapM_forall₂ {α β : Type} {f : α → Except PyErr β} : ∀ {l : List α} {r : List β},
    l.mapM f = .ok r ↔ List.Forall₂ (fun t x => f t = .ok x) l r
  | [], r => by
    constructor
    · intro h; cases h; exact .nil
    · intro h; cases h; rfl
  | a :: l, r => by
    rw [List.mapM_cons]
    cases ha : f a with
    | error e =>
      constructor
      · intro h; cases h
      · intro h; cases h with | cons h _ => rw [ha] at h; cases h
    | ok b =>
      cases hl : l.mapM f with
      | error e =>
        constructor
        · intro h; cases h
        · intro h
          cases h with
          | cons _ h => rw [mapM_forall₂.2 h] at hl; cases hl
      | ok bs =>
        constructor
        · intro h
          cases h
          exact .cons ha (mapM_forall₂.1 hl)
        · intro h
          cases h with
          | cons h1 h2 =>
            rw [ha] at h1
            cases h1
            rw [mapM_forall₂.2 h2] at hl
            cases hl
            rfl

theorem listValue_some {α : Type} (conv : Str → Except PyErr α) (v : Option Str) (l : List α) :
    listValue conv v = some l ↔ IsList conv v l := by
  cases v with
  | none => exact ⟨fun h => (by cases h), fun ⟨_, h, _⟩ => (by cases h)⟩
  | some raw =>
    unfold listValue
    simp only
    by_cases h : lower (strip raw) = "none".toList ∨ strip raw = []
    · rw [if_pos h]
      refine ⟨fun h => (by cases h), ?_⟩
      rintro ⟨_, h', h1, h2, _⟩
      cases h'
      rcases h with h | h
      exacts [absurd h h2, absurd h h1]
    · rw [if_neg h, splitWs_strip]
      rw [not_or] at h
      constructor
      · intro h'
        refine ⟨raw, rfl, h.2, h.1, ?_⟩
        cases hm : (splitWs raw).mapM conv with
        | ok r => rw [hm] at h'; cases h'; exact mapM_forall₂.1 hm
        | error e => rw [hm] at h'; cases h'
      · rintro ⟨_, h', _, _, h2⟩
        cases h'
        rw [mapM_forall₂.2 h2]

theorem listValue_none {α : Type} (conv : Str → Except PyErr α) (v : Option Str) : listValue conv v = none ↔ NoList conv v := by
  cases v with
  | none => exact ⟨fun _ _ h => (by cases h), fun _ => rfl⟩
  | some raw =>
    unfold listValue
    simp only
    by_cases h : lower (strip raw) = "none".toList ∨ strip raw = []
    · rw [if_pos h]
      refine ⟨fun _ r hr => ?_, fun _ => rfl⟩
      cases hr
      rcases h with h | h
      exacts [.inr (.inl h), .inl h]
    · rw [if_neg h, splitWs_strip]
      rw [not_or] at h
      constructor
      · intro h' r hr
        cases hr
        refine .inr (.inr ?_)
        by_contra hc
        have : (splitWs raw).mapM conv = .ok ((splitWs raw).map fun s => match conv s with
            | .ok z => z
            | .error _ => Classical.choice (by
              by_contra hn
              rw [not_nonempty_iff] at hn
              apply hc
              have hne : splitWs raw ≠ [] := by
                intro he
                rw [he] at h'
                cases h'
              obtain ⟨t, ht⟩ := List.exists_mem_of_ne_nil _ hne
              refine ⟨t, ht, ?_⟩
              cases hx : conv t with
              | ok x => exact hn.elim x
              | error e => exact ⟨e, rfl⟩)) := by
          apply mapM_ok
          intro x hx
          cases hp : conv x with
          | ok z => rfl
          | error e => exact absurd ⟨x, hx, e, hp⟩ hc
        rw [this] at h'
        cases h'
      · intro h'
        rcases h' raw rfl with h1 | h1 | h1
        · exact absurd h1 h.2
        · exact absurd h1 h.1
        · obtain ⟨e, he⟩ := mapM_error h1
          rw [he]

theorem noList_iff {α : Type} (conv : Str → Except PyErr α) (v : Option Str) : NoList conv v ↔ ¬ ∃ l, IsList conv v l := by
  rw [← listValue_none]
  constructor
  · rintro h ⟨l, hl⟩
    rw [(listValue_some conv v l).2 hl] at h
    cases h
  · intro h
    cases hv : listValue conv v with
    | none => rfl
    | some l => exact absurd ⟨l, (listValue_some conv v l).1 hv⟩ h

variable {F : Type}

/-- The parameters the analysis can ask for and that are missing in the configuration. -/
def MissingOpt (float : Str → Except PyErr F) (c : ACfg) : AKey → Prop
  | .ledArrays => NoList pyInt (c .ledArrays)
  | .domainBounds => NoList float (c .domainBounds)
  | .cameraPosition => NoList float (c .cameraPosition)
  | _ => False

open Classical in
/-- The questions to be asked, in order. -/
noncomputable def questionsFor (float : Str → Except PyErr F) (c : ACfg) : List AKey :=
  [.ledArrays, .domainBounds, .cameraPosition].filter fun k => decide (MissingOpt float c k)

/-- The answer to a question. -/
noncomputable def answerFor (float : Str → Except PyErr F) (ans : List AKey → AKey → Str) (c : ACfg) (k : AKey) : Str :=
  ans ((questionsFor float c).takeWhile (· ≠ k)) k

open Classical in
/-- The configuration with the answers. -/
noncomputable def answered (float : Str → Except PyErr F) (ans : List AKey → AKey → Str) (c : ACfg) : ACfg := fun k =>
  if MissingOpt float c k then some (answerFor float ans c k) else c k

/-- The settings of the analysis are those of a configuration. -/
structure SettingsOf (float : Str → Except PyErr F) (e : ACfg) (s : ASettings F) (arrays channels : List Int) : Prop where
  layers : ∃ t, e .numLayers = some t ∧ pyInt t = .ok s.layers
  layers_ge : -1 ≤ s.layers
  channels : s.channels = some channels ∧ IsList pyInt (e .cameraChannels) channels
  arrays : s.arrays = some arrays ∧ IsList pyInt (e .ledArrays) arrays
  ref : match s.ref with
    | .ids l => IsList pyInt (e .refImgIndices) l
    | .first n => NoList pyInt (e .refImgIndices) ∧ ∃ t, e .numRefImages = some t ∧ pyInt t = .ok n
  solver : e .solver = some s.solver
  params : match s.params with
    | .nonlinear p c n => s.solver = "nonlinear".toList ∧ (∃ t, e .weightPref = some t ∧ float t = .ok p) ∧
        (∃ t, e .weightCurv = some t ∧ float t = .ok c) ∧ ∃ t, e .numIterations = some t ∧ pyInt t = .ok n
    | .linear l => s.solver = "linear".toList ∧ ∃ t, e .lambdaReg = some t ∧ float t = .ok l
    | .unset => s.solver ≠ "nonlinear".toList ∧ s.solver ≠ "linear".toList
  property : e .refProperty = some s.property
  bounds : IsList float (e .domainBounds) [s.lo, s.hi]
  cam : IsList float (e .cameraPosition) [s.cam.1, s.cam.2.1, s.cam.2.2]
  cores : ∃ t, e .numCores = some t ∧ pyInt t = .ok s.cores

/-! ### Evaluation of the program -/

theorem aProg_andThen_ok {α β : Type} (p : AProg α) (f : α → AProg β) (w w' : AWorld) (b : β) :
    (p.andThen f) w = (w', .ok b) ↔ ∃ w1 a, p w = (w1, .ok a) ∧ f a w1 = (w', .ok b) := by
  unfold AProg.andThen
  rcases h : p w with ⟨w1, e | a⟩
  · simp
  · simp only [Prod.mk.injEq, Except.ok.injEq]
    constructor
    · intro h; exact ⟨w1, a, ⟨rfl, rfl⟩, h⟩
    · rintro ⟨_, _, ⟨rfl, rfl⟩, h⟩; exact h

theorem pure_ok {α : Type} (x : Except PyErr α) (w w' : AWorld) (b : α) :
    AProg.pure x w = (w', .ok b) ↔ w' = w ∧ x = .ok b := by
  simp only [AProg.pure, Prod.mk.injEq, eq_comm]

theorem getKey_ok (k : AKey) (w w' : AWorld) (v : Str) : getKey k w = (w', .ok v) ↔ w' = w ∧ w.cfg k = some v := by
  unfold getKey
  cases w.cfg k <;> simp [eq_comm]

theorem getInt_ok (k : AKey) (w w' : AWorld) (n : Int) :
    getInt k w = (w', .ok n) ↔ w' = w ∧ ∃ t, w.cfg k = some t ∧ pyInt t = .ok n := by
  unfold getInt
  rw [aProg_andThen_ok]
  simp only [getKey_ok, pure_ok]
  constructor
  · rintro ⟨_, t, ⟨rfl, h⟩, rfl, h'⟩; exact ⟨rfl, t, h, h'⟩
  · rintro ⟨rfl, t, h, h'⟩; exact ⟨_, t, ⟨rfl, h⟩, rfl, h'⟩

theorem getFloat_ok (float : Str → Except PyErr F) (k : AKey) (w w' : AWorld) (n : F) :
    getFloat float k w = (w', .ok n) ↔ w' = w ∧ ∃ t, w.cfg k = some t ∧ float t = .ok n := by
  unfold getFloat
  rw [aProg_andThen_ok]
  simp only [getKey_ok, pure_ok]
  constructor
  · rintro ⟨_, t, ⟨rfl, h⟩, rfl, h'⟩; exact ⟨rfl, t, h, h'⟩
  · rintro ⟨rfl, t, h, h'⟩; exact ⟨_, t, ⟨rfl, h⟩, rfl, h'⟩

theorem getList_ok {α : Type} (conv : Str → Except PyErr α) (k : AKey) (w w' : AWorld) (l : Option (List α)) :
    getList conv k w = (w', .ok l) ↔ w' = w ∧ listValue conv (w.cfg k) = l := by
  simp only [getList, Prod.mk.injEq, Except.ok.injEq, eq_comm]

theorem getRef_ok (w w' : AWorld) (r : RefOption) : getRef w = (w', .ok r) ↔ w' = w ∧ (match r with
    | .ids l => IsList pyInt (w.cfg .refImgIndices) l
    | .first n => NoList pyInt (w.cfg .refImgIndices) ∧ ∃ t, w.cfg .numRefImages = some t ∧ pyInt t = .ok n) := by
  unfold getRef
  rw [aProg_andThen_ok]
  simp only [getList_ok]
  constructor
  · rintro ⟨_, l, ⟨rfl, hl⟩, h⟩
    cases l with
    | some l =>
      obtain ⟨rfl, h⟩ := (pure_ok _ _ _ _).1 h
      cases h
      exact ⟨rfl, (listValue_some _ _ _).1 hl⟩
    | none =>
      simp only [aProg_andThen_ok, getInt_ok, pure_ok] at h
      obtain ⟨_, n, ⟨rfl, h⟩, rfl, h'⟩ := h
      cases h'
      exact ⟨rfl, (listValue_none _ _).1 hl, h⟩
  · rintro ⟨rfl, h⟩
    cases r with
    | ids l => exact ⟨_, some l, ⟨rfl, (listValue_some _ _ _).2 h⟩, rfl⟩
    | first n =>
      refine ⟨_, none, ⟨rfl, (listValue_none _ _).2 h.1⟩, ?_⟩
      simp only [aProg_andThen_ok, getInt_ok, pure_ok]
      exact ⟨_, n, ⟨rfl, h.2⟩, rfl, rfl⟩

theorem getParams_ok (float : Str → Except PyErr F) (s : Str) (w w' : AWorld) (r : SolverOption F) :
    getParams float s w = (w', .ok r) ↔ w' = w ∧ (match r with
    | .nonlinear p c n => s = "nonlinear".toList ∧ (∃ t, w.cfg .weightPref = some t ∧ float t = .ok p) ∧
        (∃ t, w.cfg .weightCurv = some t ∧ float t = .ok c) ∧ ∃ t, w.cfg .numIterations = some t ∧ pyInt t = .ok n
    | .linear l => s = "linear".toList ∧ ∃ t, w.cfg .lambdaReg = some t ∧ float t = .ok l
    | .unset => s ≠ "nonlinear".toList ∧ s ≠ "linear".toList) := by
  unfold getParams
  split
  · next hs =>
    have hn : s ≠ "linear".toList := by rw [hs]; decide
    simp only [aProg_andThen_ok, getFloat_ok, getInt_ok, pure_ok]
    constructor
    · rintro ⟨_, p, ⟨rfl, h1⟩, _, c, ⟨rfl, h2⟩, _, n, ⟨rfl, h3⟩, rfl, h⟩
      cases h
      exact ⟨rfl, hs, h1, h2, h3⟩
    · rintro ⟨rfl, h⟩
      cases r with
      | nonlinear p c n => exact ⟨_, p, ⟨rfl, h.2.1⟩, _, c, ⟨rfl, h.2.2.1⟩, _, n, ⟨rfl, h.2.2.2⟩, rfl, rfl⟩
      | linear l => exact absurd h.1 hn
      | unset => exact absurd hs h.1
  · next hs =>
    split
    · next hl =>
      simp only [aProg_andThen_ok, getFloat_ok, pure_ok]
      constructor
      · rintro ⟨_, p, ⟨rfl, h1⟩, rfl, h⟩
        cases h
        exact ⟨rfl, hl, h1⟩
      · rintro ⟨rfl, h⟩
        cases r with
        | nonlinear p c n => exact absurd h.1 hs
        | linear l => exact ⟨_, l, ⟨rfl, h.2⟩, rfl, rfl⟩
        | unset => exact absurd hl h.2
    · next hl =>
      rw [pure_ok]
      constructor
      · rintro ⟨rfl, h⟩
        cases h
        exact ⟨rfl, hs, hl⟩
      · rintro ⟨rfl, h⟩
        cases r with
        | nonlinear p c n => exact absurd h.1 hs
        | linear l => exact absurd h.1 hl
        | unset => exact ⟨rfl, rfl⟩

/-- The world after a question and its answer. -/
def answerWorld (ans : List AKey → AKey → Str) (k : AKey) (w : AWorld) : AWorld :=
  ⟨fun j => if j = k then some (ans w.asked k) else w.cfg j, fun j => if j = k then some (ans w.asked k) else w.cfg j,
    w.asked ++ [k]⟩

theorem askA_ok (ans : List AKey → AKey → Str) (k : AKey) (w w' : AWorld) (u : Unit) :
    askA ans k w = (w', .ok u) ↔ percentOk (ans w.asked k) = true ∧ w' = answerWorld ans k w := by
  unfold askA
  split
  · next h => simp [h, answerWorld, eq_comm]
  · next h => simp [h]

theorem listOrAsk_set {α : Type} (conv : Str → Except PyErr α) (ans : List AKey → AKey → Str) (k : AKey) (w : AWorld)
    (h : ¬ NoList conv (w.cfg k)) : listOrAsk conv ans k w = (w, .ok (listValue conv (w.cfg k))) := by
  rw [← listValue_none] at h
  cases hv : listValue conv (w.cfg k) with
  | none => exact absurd hv h
  | some l => simp [listOrAsk, AProg.andThen, getList, hv, AProg.pure]

theorem listOrAsk_ask {α : Type} (conv : Str → Except PyErr α) (ans : List AKey → AKey → Str) (k : AKey) (w : AWorld)
    (h : NoList conv (w.cfg k)) : listOrAsk conv ans k w =
      if percentOk (ans w.asked k) then (answerWorld ans k w, .ok (listValue conv (some (ans w.asked k))))
      else ({ w with asked := w.asked ++ [k] }, .error .valueError) := by
  rw [← listValue_none] at h
  by_cases hp : percentOk (ans w.asked k) = true
  · simp [listOrAsk, AProg.andThen, getList, h, askA, hp, answerWorld]
  · simp [listOrAsk, AProg.andThen, getList, h, askA, hp]

open Classical in
/-- The world after an option that is asked for if necessary. -/
noncomputable def listWorld {α : Type} (conv : Str → Except PyErr α) (ans : List AKey → AKey → Str) (k : AKey) (w : AWorld) : AWorld :=
  if NoList conv (w.cfg k) then answerWorld ans k w else w

theorem listOrAsk_ok {α : Type} (conv : Str → Except PyErr α) (ans : List AKey → AKey → Str) (k : AKey) (w w' : AWorld)
    (l : Option (List α)) : listOrAsk conv ans k w = (w', .ok l) ↔
      (NoList conv (w.cfg k) → percentOk (ans w.asked k) = true) ∧ w' = listWorld conv ans k w ∧ l = listValue conv (w'.cfg k) := by
  unfold listWorld
  by_cases h : NoList conv (w.cfg k)
  · rw [listOrAsk_ask conv ans k w h, if_pos h]
    split
    · next hp =>
      simp only [Prod.mk.injEq, Except.ok.injEq]
      constructor
      · rintro ⟨rfl, rfl⟩; exact ⟨fun _ => hp, rfl, by simp [answerWorld]⟩
      · rintro ⟨_, rfl, rfl⟩; exact ⟨rfl, by simp [answerWorld]⟩
    · next hp =>
      simp only [Prod.mk.injEq, reduceCtorEq, and_false, false_iff]
      rintro ⟨h', _⟩
      exact hp (h' h)
  · rw [listOrAsk_set conv ans k w h, if_neg h]
    simp only [Prod.mk.injEq, Except.ok.injEq]
    constructor
    · rintro ⟨rfl, rfl⟩; exact ⟨fun h' => absurd h' h, rfl, rfl⟩
    · rintro ⟨_, rfl, rfl⟩; exact ⟨rfl, rfl⟩

theorem listWorld_other {α : Type} (conv : Str → Except PyErr α) (ans : List AKey → AKey → Str) (k j : AKey) (w : AWorld) (h : j ≠ k) :
    (listWorld conv ans k w).cfg j = w.cfg j := by
  unfold listWorld
  split
  · simp [answerWorld, h]
  · rfl

/-- The world after all questions of the loading. -/
noncomputable def loadedWorld (float : Str → Except PyErr F) (ans : List AKey → AKey → Str) (c f : ACfg) : AWorld :=
  listWorld float ans .cameraPosition (listWorld float ans .domainBounds (listWorld pyInt ans .ledArrays ⟨c, f, []⟩))

open Classical in
theorem loadedWorld_eq (float : Str → Except PyErr F) (ans : List AKey → AKey → Str) (c f : ACfg) :
    loadedWorld float ans c f = ⟨answered float ans c, if questionsFor float c = [] then f else answered float ans c,
      questionsFor float c⟩ := by
  by_cases h1 : NoList pyInt (c .ledArrays) <;> by_cases h2 : NoList float (c .domainBounds) <;>
    by_cases h3 : NoList float (c .cameraPosition) <;>
  · have hq : questionsFor float c = questionsFor float c := rfl
    conv_rhs at hq => unfold questionsFor
    simp [MissingOpt, h1, h2, h3] at hq
    have ha : answered float ans c = answered float ans c := rfl
    conv_rhs at ha => unfold answered
    rw [ha]
    unfold loadedWorld listWorld
    simp only [answerWorld, h1, h2, h3, if_true, if_false, reduceCtorEq, hq, List.nil_append, List.cons_append, AWorld.mk.injEq,
      and_true, List.cons_ne_nil, and_self]
    first
    | done
    | funext k; cases k <;> simp [MissingOpt, h1, h2, h3, answerFor, hq]

/-- All answers can be stored (no single percent sign). -/
def AnswersOk (float : Str → Except PyErr F) (ans : List AKey → AKey → Str) (c : ACfg) : Prop :=
  ∀ k ∈ questionsFor float c, percentOk (answerFor float ans c k) = true

open Classical in
theorem answersOk_iff (float : Str → Except PyErr F) (ans : List AKey → AKey → Str) (c f : ACfg) :
    AnswersOk float ans c ↔
      (NoList pyInt (c .ledArrays) → percentOk (ans [] .ledArrays) = true) ∧
      (NoList float ((listWorld pyInt ans .ledArrays ⟨c, f, []⟩).cfg .domainBounds) →
        percentOk (ans (listWorld pyInt ans .ledArrays ⟨c, f, []⟩).asked .domainBounds) = true) ∧
      (NoList float ((listWorld float ans .domainBounds (listWorld pyInt ans .ledArrays ⟨c, f, []⟩)).cfg .cameraPosition) →
        percentOk (ans (listWorld float ans .domainBounds (listWorld pyInt ans .ledArrays ⟨c, f, []⟩)).asked .cameraPosition) = true) := by
  by_cases h1 : NoList pyInt (c .ledArrays) <;> by_cases h2 : NoList float (c .domainBounds) <;>
    by_cases h3 : NoList float (c .cameraPosition) <;>
  · have hq : questionsFor float c = questionsFor float c := rfl
    conv_rhs at hq => unfold questionsFor
    simp [MissingOpt, h1, h2, h3] at hq
    simp [AnswersOk, hq, answerFor, listWorld, answerWorld, h1, h2, h3]

theorem answered_other (float : Str → Except PyErr F) (ans : List AKey → AKey → Str) (c : ACfg) (k : AKey)
    (h : k ≠ .ledArrays ∧ k ≠ .domainBounds ∧ k ≠ .cameraPosition) : answered float ans c k = c k := by
  unfold answered
  rw [if_neg]
  cases k <;> simp_all [MissingOpt]

theorem makeLayers_ok (n : Int) (b : Option (List F)) (x : F × F) : makeLayers n b = .ok x ↔ -1 ≤ n ∧ b = some [x.1, x.2] := by
  unfold makeLayers
  split
  · next lo hi =>
    split
    · next h => simp; omega
    · next h =>
      simp only [Except.ok.injEq, Option.some.injEq, List.cons.injEq, and_true]
      constructor
      · rintro rfl; exact ⟨by omega, rfl, rfl⟩
      · rintro ⟨_, h1, h2⟩; exact Prod.ext h1 h2
  · next h =>
    simp only [reduceCtorEq, false_iff, not_and]
    intro _ h'
    exact h _ _ h'

theorem makeCamera_ok (b : Option (List F)) (x : F × F × F) : makeCamera b = .ok x ↔ b = some [x.1, x.2.1, x.2.2] := by
  unfold makeCamera
  split
  · next a b c =>
    simp only [Except.ok.injEq, Option.some.injEq, List.cons.injEq, and_true]
    constructor
    · rintro rfl; exact ⟨rfl, rfl, rfl⟩
    · rintro ⟨h1, h2, h3⟩; exact Prod.ext h1 (Prod.ext h2 h3)
  · next h =>
    simp only [reduceCtorEq, false_iff]
    intro h'
    exact h _ _ _ h'

/-- What loading the parameters gives, apart from the lists of arrays and channels being there. -/
structure LoadsTo (float : Str → Except PyErr F) (e : ACfg) (s : ASettings F) : Prop where
  layers : ∃ t, e .numLayers = some t ∧ pyInt t = .ok s.layers
  layers_ge : -1 ≤ s.layers
  channels : s.channels = listValue pyInt (e .cameraChannels)
  arrays : s.arrays = listValue pyInt (e .ledArrays)
  ref : match s.ref with
    | .ids l => IsList pyInt (e .refImgIndices) l
    | .first n => NoList pyInt (e .refImgIndices) ∧ ∃ t, e .numRefImages = some t ∧ pyInt t = .ok n
  solver : e .solver = some s.solver
  params : match s.params with
    | .nonlinear p c n => s.solver = "nonlinear".toList ∧ (∃ t, e .weightPref = some t ∧ float t = .ok p) ∧
        (∃ t, e .weightCurv = some t ∧ float t = .ok c) ∧ ∃ t, e .numIterations = some t ∧ pyInt t = .ok n
    | .linear l => s.solver = "linear".toList ∧ ∃ t, e .lambdaReg = some t ∧ float t = .ok l
    | .unset => s.solver ≠ "nonlinear".toList ∧ s.solver ≠ "linear".toList
  property : e .refProperty = some s.property
  bounds : IsList float (e .domainBounds) [s.lo, s.hi]
  cam : IsList float (e .cameraPosition) [s.cam.1, s.cam.2.1, s.cam.2.2]
  cores : ∃ t, e .numCores = some t ∧ pyInt t = .ok s.cores

theorem loadParameters_ok (float : Str → Except PyErr F) (ans : List AKey → AKey → Str) (c f : ACfg) (w : AWorld) (s : ASettings F) :
    loadParameters float ans ⟨c, f, []⟩ = (w, .ok s) ↔
      AnswersOk float ans c ∧ w = loadedWorld float ans c f ∧ LoadsTo float (answered float ans c) s := by
  have hw : (loadedWorld float ans c f).cfg = answered float ans c := by rw [loadedWorld_eq]
  have ho := answered_other float ans c
  have v1 : (listWorld pyInt ans .ledArrays ⟨c, f, []⟩).cfg .ledArrays = answered float ans c .ledArrays := by
    rw [← hw, loadedWorld, listWorld_other float ans .cameraPosition _ _ (by decide),
      listWorld_other float ans .domainBounds _ _ (by decide)]
  have v2 : (listWorld float ans .domainBounds (listWorld pyInt ans .ledArrays ⟨c, f, []⟩)).cfg .domainBounds =
      answered float ans c .domainBounds := by
    rw [← hw, loadedWorld, listWorld_other float ans .cameraPosition _ _ (by decide)]
  unfold loadParameters
  simp only [aProg_andThen_ok, getInt_ok, getKey_ok, getList_ok, getRef_ok, getParams_ok, listOrAsk_ok, pure_ok, makeLayers_ok,
    makeCamera_ok]
  rw [answersOk_iff float ans c f]
  constructor
  · rintro ⟨_, n, ⟨rfl, hn⟩, _, ch, ⟨rfl, hch⟩, _, ref, ⟨rfl, href⟩, _, so, ⟨rfl, hso⟩, _, pa, ⟨rfl, hpa⟩, _, pr, ⟨rfl, hpr⟩,
      _, ar, ⟨h1, rfl, har⟩, _, bo, ⟨h2, rfl, hbo⟩, _, po, ⟨h3, hw3, hpo⟩, _, b, ⟨rfl, hb⟩, _, cam, ⟨rfl, hcam⟩,
      _, co, ⟨rfl, hco⟩, rfl, hs⟩
    cases hs
    have hw' : w = loadedWorld float ans c f := hw3
    refine ⟨⟨h1, h2, h3⟩, hw', ?_⟩
    have hc : w.cfg = answered float ans c := by rw [hw', hw]
    rw [v1] at har
    rw [v2] at hbo
    rw [hc] at hpo hco
    exact ⟨by rw [ho _ (by decide)]; exact hn, hb.1, by rw [ho _ (by decide)]; exact hch.symm, har,
      by simpa only [ho .refImgIndices (by decide), ho .numRefImages (by decide)] using href,
      by rw [ho _ (by decide)]; exact hso,
      by simpa only [ho .weightPref (by decide), ho .weightCurv (by decide), ho .numIterations (by decide),
        ho .lambdaReg (by decide)] using hpa,
      by rw [ho _ (by decide)]; exact hpr, (listValue_some _ _ _).1 (hbo ▸ hb.2), (listValue_some _ _ _).1 (hpo ▸ hcam),
      hco⟩
  · rintro ⟨⟨h1, h2, h3⟩, rfl, h⟩
    obtain ⟨layers, lo, hi, cam, channels, arrays, ref, solver, params, property, cores⟩ := s
    obtain ⟨hn, hge, hch, har, href, hso, hpa, hpr, hb, hcam, hco⟩ := h
    rw [ho _ (by decide)] at hn hch hso hpr
    simp only [ho .refImgIndices (by decide), ho .numRefImages (by decide)] at href
    simp only [ho .weightPref (by decide), ho .weightCurv (by decide), ho .numIterations (by decide),
        ho .lambdaReg (by decide)] at hpa
    refine ⟨_, layers, ⟨rfl, hn⟩, _, channels, ⟨rfl, hch.symm⟩, _, ref, ⟨rfl, href⟩, _, solver, ⟨rfl, hso⟩, _, params, ⟨rfl, hpa⟩,
      _, property, ⟨rfl, hpr⟩, _, arrays, ⟨h1, rfl, by rw [v1]; exact har⟩, _, _, ⟨h2, rfl, rfl⟩, _, _, ⟨h3, rfl, rfl⟩,
      _, (lo, hi), ⟨rfl, hge, by rw [v2]; exact (listValue_some _ _ _).2 hb⟩, _, cam, ⟨rfl, ?_⟩, _, cores, ⟨rfl, ?_⟩, rfl, rfl⟩
    · show listValue float ((loadedWorld float ans c f).cfg .cameraPosition) = _
      rw [hw]
      exact (listValue_some _ _ _).2 hcam
    · show ∃ t, (loadedWorld float ans c f).cfg .numCores = _ ∧ _
      rw [hw]
      exact hco

theorem isList_ne_none {α : Type} (conv : Str → Except PyErr α) (l : List α) : ¬ IsList conv (some "None".toList) l := by
  rintro ⟨raw, h, _, h', _⟩
  cases h
  exact h' (by decide)

theorem isList_some {α : Type} {conv : Str → Except PyErr α} {v : Option Str} {l : List α} (h : IsList conv v l) :
    ∃ t, v = some t ∧ t ≠ "None".toList := by
  obtain ⟨t, rfl, h⟩ := h
  refine ⟨t, rfl, ?_⟩
  rintro rfl
  exact isList_ne_none conv l ⟨_, rfl, h⟩

theorem splitWsAux_ne : ∀ (s cur : Str), cur ≠ [] → splitWsAux cur s ≠ []
  | [], cur, h => by
    cases cur with
    | nil => exact absurd rfl h
    | cons => simp [splitWsAux]
  | c :: s, cur, h => by
    unfold splitWsAux
    split
    · simp
    · exact splitWsAux_ne s _ (by simp)

theorem isList_ne_nil {α : Type} {conv : Str → Except PyErr α} {v : Option Str} {l : List α} (h : IsList conv v l) : l ≠ [] := by
  obtain ⟨raw, rfl, h1, _, h3⟩ := h
  rintro rfl
  cases hs : splitWs raw with
  | nil =>
    apply h1
    rw [← splitWs_strip] at hs
    rcases strip_shape raw with he | ⟨c, t, he, hc, _⟩
    · exact he
    · rw [he] at hs
      unfold splitWs splitWsAux at hs
      rw [if_neg (by simp [hc])] at hs
      exact absurd hs (splitWsAux_ne t [c] (by simp))
  | cons a t => rw [hs] at h3; cases h3

theorem askIfNone_set (ans : List AKey → AKey → Str) (k : AKey) (w : AWorld) (t : Str) (h : w.cfg k = some t) (hn : t ≠ "None".toList) :
    askIfNone ans k w = (w, .ok ()) := by
  simp only [askIfNone, AProg.andThen, getKey, h]
  rw [if_neg hn]
  rfl

theorem loads_not_none {float : Str → Except PyErr F} {e : ACfg} {s : ASettings F} (h : LoadsTo float e s) :
    (∃ t, e .cameraPosition = some t ∧ t ≠ "None".toList) ∧ (∃ t, e .numLayers = some t ∧ t ≠ "None".toList) ∧
    ∃ t, e .domainBounds = some t ∧ t ≠ "None".toList := by
  refine ⟨isList_some h.cam, ?_, isList_some h.bounds⟩
  obtain ⟨t, ht, hp⟩ := h.layers
  refine ⟨t, ht, ?_⟩
  rintro rfl
  have : pyInt "None".toList = .error .valueError := by decide
  rw [this] at hp
  cases hp

/-- **C99.** An analysis starts exactly if the completed configuration is readable. It has then asked exactly for the missing
parameters among LED arrays, bounds and camera position, each once; it uses the answers for them and the given values for all
others; and the answers have been saved. Missing: the number of layers and the channels are never asked for
(`C99_layers_false`, `C99_channels_false`). -/
theorem C99_started_iff_partial (float : Str → Except PyErr F) (ans : List AKey → AKey → Str) (c f : ACfg) (w : AWorld)
    (s : ASettings F) (pairs : List (Int × Int)) :
    startAnalysis float ans ⟨c, f, []⟩ = (w, .ok (s, pairs)) ↔
      AnswersOk float ans c ∧ w.cfg = answered float ans c ∧ w.asked = questionsFor float c ∧
      w.file = (if questionsFor float c = [] then f else answered float ans c) ∧
      ∃ arrays channels, SettingsOf float (answered float ans c) s arrays channels ∧
        pairs = arrays.flatMap fun a => channels.map fun k => (a, k) := by
  have hreq : ∀ s : ASettings F, LoadsTo float (answered float ans c) s →
      (∃ t, answered float ans c .ledArrays = some t ∧ t ≠ "None".toList) →
      requestParameters ans (loadedWorld float ans c f) = (loadedWorld float ans c f, .ok ()) := by
    intro s hs h4
    obtain ⟨⟨t1, a1, b1⟩, ⟨t2, a2, b2⟩, t3, a3, b3⟩ := loads_not_none hs
    obtain ⟨t4, a4, b4⟩ := h4
    have hw : (loadedWorld float ans c f).cfg = answered float ans c := by rw [loadedWorld_eq]
    simp only [requestParameters, AProg.andThen]
    rw [askIfNone_set ans _ _ t1 (by rw [hw, a1]) b1]
    simp only
    rw [askIfNone_set ans _ _ t2 (by rw [hw, a2]) b2]
    simp only
    rw [askIfNone_set ans _ _ t3 (by rw [hw, a3]) b3]
    simp only
    rw [askIfNone_set ans _ _ t4 (by rw [hw, a4]) b4]
  unfold startAnalysis
  simp only [aProg_andThen_ok, loadParameters_ok, pure_ok]
  constructor
  · rintro ⟨_, s', ⟨h1, rfl, h2⟩, w2, _, hr, _, l, ⟨rfl, hp⟩, rfl, hs⟩
    cases hs
    unfold analysisPairs at hp
    cases ha : s.arrays with
    | none => rw [ha] at hp; cases hp
    | some arrays =>
      have hl : IsList pyInt (answered float ans c .ledArrays) arrays := (listValue_some _ _ _).1 (by rw [← h2.arrays, ha])
      have hne := isList_ne_nil hl
      rw [ha] at hp
      cases arrays with
      | nil => exact absurd rfl hne
      | cons a as =>
        simp only at hp
        cases hc : s.channels with
        | none => rw [hc] at hp; cases hp
        | some channels =>
          rw [hc] at hp
          cases hp
          have hcl : IsList pyInt (answered float ans c .cameraChannels) channels :=
            (listValue_some _ _ _).1 (by rw [← h2.channels, hc])
          rw [hreq s h2 (isList_some hl)] at hr
          cases hr
          refine ⟨h1, by rw [loadedWorld_eq], by rw [loadedWorld_eq], by rw [loadedWorld_eq], a :: as, channels,
            ⟨h2.layers, h2.layers_ge, ⟨hc, hcl⟩, ⟨ha, hl⟩, h2.ref, h2.solver, h2.params, h2.property, h2.bounds, h2.cam, h2.cores⟩, rfl⟩
  · rintro ⟨h1, h2, h3, h4, arrays, channels, h, rfl⟩
    have hl : LoadsTo float (answered float ans c) s :=
      ⟨h.layers, h.layers_ge, by rw [h.channels.1, (listValue_some _ _ _).2 h.channels.2], by
        rw [h.arrays.1, (listValue_some _ _ _).2 h.arrays.2], h.ref, h.solver, h.params, h.property, h.bounds, h.cam, h.cores⟩
    have hw : w = loadedWorld float ans c f := by
      rw [loadedWorld_eq]
      obtain ⟨wc, wf, wa⟩ := w
      simp only at h2 h3 h4
      subst h2 h3 h4
      congr
    refine ⟨_, s, ⟨h1, rfl, hl⟩, _, (), hreq s hl (isList_some h.arrays.2), _, _, ⟨hw, ?_⟩, rfl, rfl⟩
    have hne := isList_ne_nil h.arrays.2
    rw [h.arrays.1, h.channels.1]
    cases arrays with
    | nil => exact absurd rfl hne
    | cons a as => rfl

/-- Refuted (C99): a missing number of layers is never asked for. The analysis ends with a `ValueError` before the question. -/
theorem C99_layers_false (float : Str → Except PyErr F) (ans : List AKey → AKey → Str) (w : AWorld)
    (h : w.cfg .numLayers = some "None".toList) : startAnalysis float ans w = (w, .error .valueError) := by
  have hp : pyInt "None".toList = .error .valueError := by decide
  simp only [startAnalysis, loadParameters, AProg.andThen, getInt, getKey, h, AProg.pure, hp]

/-! ### Questions in all outcomes -/

/-- A program that leaves the world as it is. -/
def Silent {α : Type} (p : AProg α) : Prop := ∀ w, (p w).1 = w

theorem Silent.andThen {α β : Type} {p : AProg α} {f : α → AProg β} (hp : Silent p) (hf : ∀ a, Silent (f a)) :
    Silent (p.andThen f) := by
  intro w
  have h := hp w
  unfold AProg.andThen
  rcases hw : p w with ⟨w1, e | a⟩
  · rw [hw] at h; exact h
  · rw [hw] at h; simp only at h; subst h; exact hf a w1

theorem silent_pure {α : Type} (x : Except PyErr α) : Silent (AProg.pure x) := fun _ => rfl

theorem silent_getKey (k : AKey) : Silent (getKey k) := by
  intro w
  unfold getKey
  cases w.cfg k <;> rfl

theorem silent_getInt (k : AKey) : Silent (getInt k) := (silent_getKey k).andThen fun _ => silent_pure _

theorem silent_getFloat (float : Str → Except PyErr F) (k : AKey) : Silent (getFloat float k) :=
  (silent_getKey k).andThen fun _ => silent_pure _

theorem silent_getList {α : Type} (conv : Str → Except PyErr α) (k : AKey) : Silent (getList conv k) := fun _ => rfl

theorem silent_getRef : Silent getRef := (silent_getList _ _).andThen fun l => by
  cases l with
  | some l => exact silent_pure _
  | none => exact (silent_getInt _).andThen fun _ => silent_pure _

theorem silent_getParams (float : Str → Except PyErr F) (s : Str) : Silent (getParams float s) := by
  unfold getParams
  split
  · exact (silent_getFloat _ _).andThen fun _ => (silent_getFloat _ _).andThen fun _ => (silent_getInt _).andThen fun _ => silent_pure _
  · split
    · exact (silent_getFloat _ _).andThen fun _ => silent_pure _
    · exact silent_pure _

/-- A program whose questions satisfy a condition, given what was asked before; it may add to the configuration only the options
asked for, and every change is saved. -/
structure Polite {α : Type} (allowed : List AKey) (p : AProg α) : Prop where
  asks : ∀ w, ∃ l, (p w).1.asked = w.asked ++ l ∧ l.Sublist allowed
  keeps : ∀ w k, k ∉ allowed → (p w).1.cfg k = w.cfg k
  saves : ∀ w, w.file = w.cfg → (p w).1.file = (p w).1.cfg

theorem Silent.polite {α : Type} {p : AProg α} (h : Silent p) (l : List AKey) : Polite l p :=
  ⟨fun w => ⟨[], by rw [h w]; simp, List.nil_sublist _⟩, fun w k _ => by rw [h w], fun w hw => by rw [h w]; exact hw⟩

theorem Polite.andThen {α β : Type} {l l' : List AKey} {p : AProg α} {f : α → AProg β} (hp : Polite l p)
    (hf : ∀ a, Polite l' (f a)) : Polite (l ++ l') (p.andThen f) := by
  refine ⟨fun w => ?_, fun w k hk => ?_, fun w hw => ?_⟩
  · obtain ⟨l1, h1, s1⟩ := hp.asks w
    unfold AProg.andThen
    rcases hw : p w with ⟨w1, e | a⟩
    · rw [hw] at h1
      exact ⟨l1, h1, s1.trans (List.sublist_append_left _ _)⟩
    · rw [hw] at h1
      obtain ⟨l2, h2, s2⟩ := (hf a).asks w1
      refine ⟨l1 ++ l2, ?_, s1.append s2⟩
      simp only at h1 ⊢
      rw [h2, h1, List.append_assoc]
  · have h1 := hp.keeps w k (fun h => hk (List.mem_append_left _ h))
    unfold AProg.andThen
    rcases hw : p w with ⟨w1, e | a⟩
    · rw [hw] at h1; exact h1
    · rw [hw] at h1
      simp only at h1 ⊢
      rw [(hf a).keeps w1 k (fun h => hk (List.mem_append_right _ h)), h1]
  · have h1 := hp.saves w hw
    unfold AProg.andThen
    rcases hw : p w with ⟨w1, e | a⟩
    · rw [hw] at h1; exact h1
    · rw [hw] at h1; exact (hf a).saves w1 h1

theorem polite_askA (ans : List AKey → AKey → Str) (k : AKey) : Polite [k] (askA ans k) := by
  refine ⟨fun w => ⟨[k], ?_, List.Sublist.refl _⟩, fun w j hj => ?_, fun w hw => ?_⟩
  · unfold askA; split <;> rfl
  · unfold askA
    split
    · simp only [List.mem_singleton] at hj
      simp [hj]
    · rfl
  · unfold askA
    split
    · rfl
    · exact hw

theorem Polite.mono {α : Type} {l l' : List AKey} {p : AProg α} (h : Polite l p) (hs : l.Sublist l') : Polite l' p :=
  ⟨fun w => (h.asks w).imp fun _ h => ⟨h.1, h.2.trans hs⟩, fun w k hk => h.keeps w k fun h => hk (hs.subset h), h.saves⟩

theorem polite_listOrAsk {α : Type} (conv : Str → Except PyErr α) (ans : List AKey → AKey → Str) (k : AKey) :
    Polite [k] (listOrAsk conv ans k) := by
  unfold listOrAsk
  have := ((silent_getList conv k).polite []).andThen (l' := [k])
    (f := fun l => AProg.andThen (match l with
      | some _ => AProg.pure (.ok ())
      | none => askA ans k) fun _ => getList conv k) (fun l => by
    have h2 : Polite [k] (match l with
      | some _ => AProg.pure (.ok ())
      | none => askA ans k) := by
      cases l with
      | some l => exact (silent_pure _).polite _
      | none => exact polite_askA ans k
    exact h2.andThen (l' := []) fun _ => (silent_getList conv k).polite _)
  exact this

theorem polite_askIfNone (ans : List AKey → AKey → Str) (k : AKey) : Polite [k] (askIfNone ans k) := by
  unfold askIfNone
  exact ((silent_getKey k).polite []).andThen fun v => by
    split
    · exact polite_askA ans k
    · exact (silent_pure _).polite _

theorem polite_load (float : Str → Except PyErr F) (ans : List AKey → AKey → Str) :
    Polite [.ledArrays, .domainBounds, .cameraPosition] (loadParameters float ans) := by
  unfold loadParameters
  exact ((silent_getInt _).polite []).andThen fun _ => ((silent_getList _ _).polite []).andThen fun _ =>
    (silent_getRef.polite []).andThen fun _ => ((silent_getKey _).polite []).andThen fun _ =>
    ((silent_getParams _ _).polite []).andThen fun _ => ((silent_getKey _).polite []).andThen fun _ =>
    (polite_listOrAsk pyInt ans .ledArrays).andThen fun _ => (polite_listOrAsk float ans .domainBounds).andThen fun _ =>
    (polite_listOrAsk float ans .cameraPosition).andThen (l' := []) fun _ => ((silent_pure _).polite []).andThen fun _ =>
    ((silent_pure _).polite []).andThen fun _ => ((silent_getInt _).polite []).andThen fun _ => (silent_pure _).polite []

theorem polite_start (float : Str → Except PyErr F) (ans : List AKey → AKey → Str) :
    Polite [.ledArrays, .domainBounds, .cameraPosition, .cameraPosition, .numLayers, .domainBounds, .ledArrays]
      (startAnalysis float ans) := by
  unfold startAnalysis requestParameters
  exact (polite_load float ans).andThen fun _ => ((polite_askIfNone ans _).andThen fun _ => (polite_askIfNone ans _).andThen fun _ =>
    (polite_askIfNone ans _).andThen fun _ => polite_askIfNone ans _).andThen (l' := []) fun _ =>
    ((silent_pure _).polite []).andThen fun _ => (silent_pure _).polite []

/-- Refuted (C99): missing channels are never asked for, and the analysis does not start. -/
theorem C99_channels_false (float : Str → Except PyErr F) (ans : List AKey → AKey → Str) (c f : ACfg)
    (h : NoList pyInt (c .cameraChannels)) :
    .cameraChannels ∉ (startAnalysis float ans ⟨c, f, []⟩).1.asked ∧ ∃ e, (startAnalysis float ans ⟨c, f, []⟩).2 = .error e := by
  constructor
  · obtain ⟨l, h1, h2⟩ := (polite_start float ans).asks ⟨c, f, []⟩
    rw [h1, List.nil_append]
    intro hm
    have := h2.subset hm
    simp at this
  · rcases hr : startAnalysis float ans ⟨c, f, []⟩ with ⟨w, e | ⟨s, p⟩⟩
    · exact ⟨e, rfl⟩
    · obtain ⟨_, _, _, _, _, ch, hs, _⟩ := (C99_started_iff_partial float ans c f w s p).1 hr
      have h' := hs.channels.2
      rw [answered_other _ _ _ _ (by decide)] at h'
      exact absurd ⟨ch, h'⟩ ((noList_iff _ _).1 h)

/-- **C99.** In every outcome: parameters that are not asked for keep their values, in memory and in the file, and what was
answered is saved in the file. -/
theorem C99_kept (float : Str → Except PyErr F) (ans : List AKey → AKey → Str) (c : ACfg) :
    (startAnalysis float ans ⟨c, c, []⟩).1.file = (startAnalysis float ans ⟨c, c, []⟩).1.cfg ∧
    ∀ k, k ≠ .ledArrays → k ≠ .domainBounds → k ≠ .cameraPosition → k ≠ .numLayers →
      (startAnalysis float ans ⟨c, c, []⟩).1.file k = c k := by
  have hs := (polite_start float ans).saves ⟨c, c, []⟩ rfl
  refine ⟨hs, ?_⟩
  intro k h1 h2 h3 h4
  rw [hs]
  exact (polite_start float ans).keeps ⟨c, c, []⟩ k (by simp [h1, h2, h3, h4])

theorem isList_strip {α : Type} (conv : Str → Except PyErr α) (v : Option Str) (l : List α) :
    IsList conv (v.map strip) l ↔ IsList conv v l := by
  cases v with
  | none => rfl
  | some raw =>
    unfold IsList
    constructor
    · rintro ⟨r, h, h1⟩
      cases h
      rw [strip_idem, splitWs_strip] at h1
      exact ⟨raw, rfl, h1⟩
    · rintro ⟨r, h, h1⟩
      cases h
      exact ⟨strip raw, rfl, by rw [strip_idem, splitWs_strip]; exact h1⟩

/-- **C99.** Once an analysis has started, later runs with the saved file ask nothing, change nothing and use the same
settings. -/
theorem C99_second_run (float : Str → Except PyErr F) (ans ans' : List AKey → AKey → Str) (c : ACfg)
    (hload : ∀ k t, c k = some t → strip t = t) (w : AWorld) (s : ASettings F) (pairs : List (Int × Int))
    (h : startAnalysis float ans ⟨c, c, []⟩ = (w, .ok (s, pairs))) :
    let c' : ACfg := fun k => (w.file k).map strip
    startAnalysis float ans' ⟨c', c', []⟩ = (⟨c', c', []⟩, .ok (s, pairs)) := by
  intro c'
  obtain ⟨h1, h2, h3, h4, arrays, channels, hs, hp⟩ := (C99_started_iff_partial float ans c c w s pairs).1 h
  have hsame : ∀ k, k ≠ .ledArrays ∧ k ≠ .domainBounds ∧ k ≠ .cameraPosition → (c k).map strip = c k := by
    intro k _
    cases hk : c k with
    | none => rfl
    | some t => simp [hload k t hk]
  have hfile : w.file = answered float ans c := by
    rw [h4]
    split
    · next hq =>
      funext k
      unfold answered
      rw [if_neg]
      intro hm
      have : k ∈ questionsFor float c := by
        unfold questionsFor
        rw [List.mem_filter]
        refine ⟨?_, by simpa using hm⟩
        cases k <;> simp_all [MissingOpt]
      rw [hq] at this
      cases this
    · rfl
  have hc' : ∀ k, c' k = (answered float ans c k).map strip := fun k => by simp only [c', hfile]
  have hother : ∀ k, k ≠ .ledArrays ∧ k ≠ .domainBounds ∧ k ≠ .cameraPosition → c' k = answered float ans c k := by
    intro k hk
    rw [hc', answered_other _ _ _ _ hk, hsame k hk]
  have hset : SettingsOf float c' s arrays channels := by
    refine ⟨?_, hs.layers_ge, ⟨hs.channels.1, ?_⟩, ⟨hs.arrays.1, ?_⟩, ?_, ?_, ?_, ?_, ?_, ?_, ?_⟩
    · rw [hother _ (by decide)]; exact hs.layers
    · rw [hother _ (by decide)]; exact hs.channels.2
    · rw [hc', isList_strip]; exact hs.arrays.2
    · simp only [hother .refImgIndices (by decide), hother .numRefImages (by decide)]; exact hs.ref
    · rw [hother _ (by decide)]; exact hs.solver
    · simp only [hother .weightPref (by decide), hother .weightCurv (by decide), hother .numIterations (by decide),
        hother .lambdaReg (by decide)]
      exact hs.params
    · rw [hother _ (by decide)]; exact hs.property
    · rw [hc', isList_strip]; exact hs.bounds
    · rw [hc', isList_strip]; exact hs.cam
    · rw [hother _ (by decide)]; exact hs.cores
  have hq : questionsFor float c' = [] := by
    unfold questionsFor
    rw [List.filter_eq_nil_iff]
    intro k hk
    simp only [List.mem_cons, List.not_mem_nil, or_false] at hk
    simp only [decide_eq_true_eq]
    rcases hk with rfl | rfl | rfl
    · exact fun hm => (noList_iff _ _).1 hm ⟨_, hset.arrays.2⟩
    · exact fun hm => (noList_iff _ _).1 hm ⟨_, hset.bounds⟩
    · exact fun hm => (noList_iff _ _).1 hm ⟨_, hset.cam⟩
  have ha : answered float ans' c' = c' := by
    funext k
    unfold answered
    rw [if_neg]
    intro hm
    have : k ∈ questionsFor float c' := by
      unfold questionsFor
      rw [List.mem_filter]
      refine ⟨?_, by simpa using hm⟩
      cases k <;> simp_all [MissingOpt]
    rw [hq] at this
    cases this
  refine (C99_started_iff_partial float ans' c' c' _ s pairs).2 ⟨?_, ha.symm, hq.symm, by rw [if_pos hq], arrays, channels, ?_, hp⟩
  · intro k hk; rw [hq] at hk; cases hk
  · rw [ha]; exact hset

/-- Refuted (C99): if the LED arrays are answered with `None`, they are asked for a second time, but the second answer is not
used: the analysis ends with a `TypeError` whatever it is. -/
theorem C99_again_false (float : Str → Except PyErr F) (ans : List AKey → AKey → Str) (c f : ACfg) (w : AWorld) (s : ASettings F)
    (h : loadParameters float ans ⟨c, f, []⟩ = (w, .ok s)) (hn : w.cfg .ledArrays = some "None".toList)
    (hp : percentOk (ans w.asked .ledArrays) = true) :
    (startAnalysis float ans ⟨c, f, []⟩).2 = .error .typeError ∧
    (startAnalysis float ans ⟨c, f, []⟩).1.asked = w.asked ++ [.ledArrays] ∧
    (startAnalysis float ans ⟨c, f, []⟩).1.file .ledArrays = some (ans w.asked .ledArrays) := by
  obtain ⟨_, hw, hl⟩ := (loadParameters_ok float ans c f w s).1 h
  have hc : w.cfg = answered float ans c := by rw [hw, loadedWorld_eq]
  obtain ⟨⟨t1, a1, b1⟩, ⟨t2, a2, b2⟩, t3, a3, b3⟩ := loads_not_none hl
  have har : s.arrays = none := by
    rw [hl.arrays, ← hc, hn, listValue_none, noList_iff]
    rintro ⟨l, hl⟩
    exact isList_ne_none _ _ hl
  have hr : requestParameters ans w = (answerWorld ans .ledArrays w, .ok ()) := by
    simp only [requestParameters, AProg.andThen]
    rw [askIfNone_set ans _ _ t1 (by rw [hc, a1]) b1]
    simp only
    rw [askIfNone_set ans _ _ t2 (by rw [hc, a2]) b2]
    simp only
    rw [askIfNone_set ans _ _ t3 (by rw [hc, a3]) b3]
    simp only [askIfNone, AProg.andThen, getKey, hn, if_true]
    exact (askA_ok ans _ w _ ()).2 ⟨hp, rfl⟩
  have : startAnalysis float ans ⟨c, f, []⟩ = (answerWorld ans .ledArrays w, .error .typeError) := by
    simp only [startAnalysis, AProg.andThen, h, hr, har, analysisPairs, AProg.pure]
  rw [this]
  exact ⟨rfl, rfl, by simp [answerWorld]⟩

/-! ### C100 -/

/-- Configurations that differ in the option for averaging only. -/
def SameBut (w w' : AWorld) : Prop := (∀ k, k ≠ .averageImages → w.cfg k = w'.cfg k) ∧ w.asked = w'.asked

/-- A program that does not use the option. -/
def Blind {α : Type} (p : AProg α) : Prop := ∀ w w', SameBut w w' → (p w).2 = (p w').2 ∧ SameBut (p w).1 (p w').1

theorem Blind.andThen {α β : Type} {p : AProg α} {f : α → AProg β} (hp : Blind p) (hf : ∀ a, Blind (f a)) : Blind (p.andThen f) := by
  intro w w' h
  have h1 := hp w w' h
  unfold AProg.andThen
  rcases hw : p w with ⟨w1, e | a⟩ <;> rcases hw' : p w' with ⟨w1', e' | a'⟩ <;> rw [hw, hw'] at h1 <;> simp only at h1
  · exact ⟨by simpa using h1.1, h1.2⟩
  · cases h1.1
  · cases h1.1
  · have := h1.1
    cases this
    exact hf a w1 w1' h1.2

theorem blind_pure {α : Type} (x : Except PyErr α) : Blind (AProg.pure x) := fun _ _ h => ⟨rfl, h⟩

theorem blind_getKey (k : AKey) (hk : k ≠ .averageImages) : Blind (getKey k) := by
  intro w w' h
  unfold getKey
  rw [← h.1 k hk]
  cases w.cfg k <;> exact ⟨rfl, h⟩

theorem blind_getInt (k : AKey) (hk : k ≠ .averageImages) : Blind (getInt k) := (blind_getKey k hk).andThen fun _ => blind_pure _

theorem blind_getFloat (float : Str → Except PyErr F) (k : AKey) (hk : k ≠ .averageImages) : Blind (getFloat float k) :=
  (blind_getKey k hk).andThen fun _ => blind_pure _

theorem blind_getList {α : Type} (conv : Str → Except PyErr α) (k : AKey) (hk : k ≠ .averageImages) : Blind (getList conv k) := by
  intro w w' h
  unfold getList
  rw [← h.1 k hk]
  exact ⟨rfl, h⟩

theorem blind_askA (ans : List AKey → AKey → Str) (k : AKey) : Blind (askA ans k) := by
  intro w w' h
  unfold askA
  rw [← h.2]
  split
  · exact ⟨rfl, fun j hj => by simp only; split <;> [rfl; exact h.1 j hj], rfl⟩
  · exact ⟨rfl, h.1, rfl⟩

theorem blind_getRef : Blind getRef := (blind_getList _ _ (by decide)).andThen fun l => by
  cases l with
  | some l => exact blind_pure _
  | none => exact (blind_getInt _ (by decide)).andThen fun _ => blind_pure _

theorem blind_getParams (float : Str → Except PyErr F) (s : Str) : Blind (getParams float s) := by
  unfold getParams
  split
  · exact (blind_getFloat _ _ (by decide)).andThen fun _ => (blind_getFloat _ _ (by decide)).andThen fun _ =>
      (blind_getInt _ (by decide)).andThen fun _ => blind_pure _
  · split
    · exact (blind_getFloat _ _ (by decide)).andThen fun _ => blind_pure _
    · exact blind_pure _

theorem blind_listOrAsk {α : Type} (conv : Str → Except PyErr α) (ans : List AKey → AKey → Str) (k : AKey)
    (hk : k ≠ .averageImages) : Blind (listOrAsk conv ans k) := by
  unfold listOrAsk
  refine (blind_getList conv k hk).andThen fun l => ?_
  cases l with
  | some l => exact (blind_pure _).andThen fun _ => blind_getList conv k hk
  | none => exact (blind_askA ans k).andThen fun _ => blind_getList conv k hk

theorem blind_askIfNone (ans : List AKey → AKey → Str) (k : AKey) (hk : k ≠ .averageImages) : Blind (askIfNone ans k) := by
  unfold askIfNone
  refine (blind_getKey k hk).andThen fun v => ?_
  split
  · exact blind_askA ans k
  · exact blind_pure _

theorem blind_start (float : Str → Except PyErr F) (ans : List AKey → AKey → Str) : Blind (startAnalysis float ans) := by
  have hl : Blind (loadParameters float ans) := by
    unfold loadParameters
    exact (blind_getInt _ (by decide)).andThen fun _ => (blind_getList _ _ (by decide)).andThen fun _ =>
      blind_getRef.andThen fun _ => (blind_getKey _ (by decide)).andThen fun _ => (blind_getParams _ _).andThen fun _ =>
      (blind_getKey _ (by decide)).andThen fun _ => (blind_listOrAsk _ _ _ (by decide)).andThen fun _ =>
      (blind_listOrAsk _ _ _ (by decide)).andThen fun _ => (blind_listOrAsk _ _ _ (by decide)).andThen fun _ =>
      (blind_pure _).andThen fun _ => (blind_pure _).andThen fun _ => (blind_getInt _ (by decide)).andThen fun _ => blind_pure _
  unfold startAnalysis requestParameters
  exact hl.andThen fun _ => ((blind_askIfNone ans _ (by decide)).andThen fun _ => (blind_askIfNone ans _ (by decide)).andThen fun _ =>
    (blind_askIfNone ans _ (by decide)).andThen fun _ => blind_askIfNone ans _ (by decide)).andThen fun _ =>
    (blind_pure _).andThen fun _ => blind_pure _

/-- Refuted (C100): the option for averaging has no influence on the analysis from the command line, whatever its value. -/
theorem C100_false (float : Str → Except PyErr F) (ans : List AKey → AKey → Str) (c : ACfg) (v v' : Option Str) :
    let set := fun (v : Option Str) (k : AKey) => if k = .averageImages then v else c k
    (startAnalysis float ans ⟨set v, set v, []⟩).2 = (startAnalysis float ans ⟨set v', set v', []⟩).2 := by
  intro set
  exact (blind_start float ans ⟨set v, set v, []⟩ ⟨set v', set v', []⟩ ⟨fun k hk => by simp [set, hk], rfl⟩).1

/-! ### Examples -/

/-- Reading of numbers for the examples: integers only. -/
def intFloat (s : Str) : Except PyErr Int := pyInt s

/-- A configuration as created, with three parameters missing. -/
def exampleACfg : ACfg
  | .numCores => some "1".toList
  | .refProperty => some "sum_col_val".toList
  | .numRefImages => some "10".toList
  | .refImgIndices => some "None".toList
  | .cameraChannels => some "0 1".toList
  | .averageImages => some "False".toList
  | .solver => some "linear".toList
  | .weightPref => some "-6e-3".toList
  | .weightCurv => some "1e-6".toList
  | .numIterations => some "200".toList
  | .lambdaReg => some "1".toList
  | .cameraPosition => some "None".toList
  | .ledArrays => some "None".toList
  | .numLayers => some "20".toList
  | .domainBounds => some "0 3".toList

/-- Answers. -/
def exampleAAns : List AKey → AKey → Str
  | _, .ledArrays => "0 4".toList
  | _, .cameraPosition => "7 3 2".toList
  | _, _ => "None".toList

example : ∃ w, startAnalysis intFloat exampleAAns ⟨exampleACfg, exampleACfg, []⟩ = (w, .ok
    (⟨20, 0, 3, (7, 3, 2), some [0, 1], some [0, 4], .first 10, "linear".toList, .linear 1, "sum_col_val".toList, 1⟩,
      [(0, 0), (0, 1), (4, 0), (4, 1)])) ∧ w.asked = [.ledArrays, .cameraPosition] :=
  ⟨_, Prod.ext rfl (by decide +kernel), by decide +kernel⟩

example : startAnalysis intFloat exampleAAns ⟨fun k => if k = .numLayers then some "None".toList else exampleACfg k, exampleACfg, []⟩ =
    (⟨fun k => if k = .numLayers then some "None".toList else exampleACfg k, exampleACfg, []⟩, .error .valueError) :=
  C99_layers_false _ _ _ rfl

example : (startAnalysis intFloat (fun h k => if k = .ledArrays ∧ h = [] then "None".toList else exampleAAns h k)
    ⟨exampleACfg, exampleACfg, []⟩).2 = .error .typeError ∧
    (startAnalysis intFloat (fun h k => if k = .ledArrays ∧ h = [] then "None".toList else exampleAAns h k)
      ⟨exampleACfg, exampleACfg, []⟩).1.asked = [.ledArrays, .cameraPosition, .ledArrays] := by decide +kernel

end Ledsa
