import Verif.Model.AnalysisObject
import Verif.Props.ColourTables

/-!
# An analysis object calculates with its settings (C188)

Specification: `freshCoefficients` is what the settings and the files of the moment give: load, divide by the means of the reference images, solve
image by image.
-/

namespace Ledsa

variable {W K R G C : Type}

/-- What the settings and the files give. -/
def freshCoefficients [Field K] (s : DataSources W K R G) (f : List R → List K → C) (parallel : Bool) (prop : String) (ref : RefChoice)
    (geo : G) (w : W) : Except PyErr (List C) := do
  let d ← (s.load w prop).1
  let rels ← (if parallel then poolRel d (refIntensities ref d) else serialRel d (refIntensities ref d) : Except PyErr (List (List K)))
  .ok (rels.map (f (s.rows geo)))

/-- The files can be read again, and an array without rows is an error. -/
structure DataSources.Repeatable (s : DataSources W K R G) : Prop where
  again : ∀ w p d w', s.load w p = (.ok d, w') → s.load w' p = (.ok d, w')
  rows : ∀ w p d w', s.load w p = (.ok d, w') → d ≠ []

/-- What an object has kept belongs to its settings and to the files. -/
structure AnalysisObject.UpToDate [Field K] (s : DataSources W K R G) (o : AnalysisObject K R G C) (w : W) : Prop where
  dist : o.dist = [] ∨ o.dist = s.rows o.geo
  data : o.data = [] ∨ (o.column = o.prop ∧ s.load w o.prop = (.ok o.data, w))
  refs : o.refs = [] ∨ (o.data ≠ [] ∧ o.refs = refIntensities o.ref o.data)

/-- A change that comes before what it concerns has been kept. -/
def AnalysisObject.InTime (o : AnalysisObject K R G C) : ObjectCall W G → Prop
  | .setProperty _ => o.data = []
  | .setReference _ => o.refs = []
  | .setGeometry _ => o.dist = []
  | .files _ => o.data = []
  | .calculate _ => True

theorem new_upToDate [Field K] (s : DataSources W K R G) (p : String) (c : RefChoice) (g : G) (w : W) :
    (AnalysisObject.new p c g : AnalysisObject K R G C).UpToDate s w := ⟨.inl rfl, .inl rfl, .inl rfl⟩

theorem runSerial_linear (f : List K → C) (rels : List (List K)) (stored : List C) :
    runSerial (linearSolver f) rels stored = stored ++ rels.map f := by
  unfold runSerial
  induction rels generalizing stored with
  | nil => simp
  | cons r t ih =>
    simp only [List.foldl_cons, List.map_cons]
    rw [ih]
    simp [linearSolver]

/-- What `prepare` does with an object that is up to date. -/
theorem prepare_upToDate [Field K] (s : DataSources W K R G) (hs : s.Repeatable) (o : AnalysisObject K R G C) (w : W) (h : o.UpToDate s w) :
    (∃ e o' w', o.prepare s w = (.error e, o', w') ∧ (s.load w o.prop).1 = .error e ∧ o'.UpToDate s w' ∧
        o' = { o with dist := s.rows o.geo }) ∨
    ∃ d o' w', o.prepare s w = (.ok (), o', w') ∧ (s.load w o.prop).1 = .ok d ∧ o'.UpToDate s w' ∧
      o' = { o with dist := s.rows o.geo, column := o.prop, data := d, refs := refIntensities o.ref d } := by
  obtain ⟨hd, hdata, href⟩ := h
  have e1 : o.withDistances s = { o with dist := s.rows o.geo } := by
    unfold AnalysisObject.withDistances
    rcases hd with h | h
    · rw [h]; rfl
    · split
      · rfl
      · rw [← h]
  unfold AnalysisObject.prepare
  rw [e1]
  rcases hdata with h0 | ⟨hc, hl⟩
  · have href : o.refs = [] := by
      rcases href with h | h
      · exact h
      · exact absurd h0 h.1
    unfold AnalysisObject.withData
    simp only [h0, List.isEmpty_nil, if_true]
    rcases hq : s.load w o.prop with ⟨r, w'⟩
    cases r with
    | error e =>
      refine .inl ⟨e, _, w', rfl, rfl, ⟨.inr rfl, .inl rfl, .inl href⟩, ?_⟩
      rw [← h0]
    | ok d =>
      right
      refine ⟨d, { o with dist := s.rows o.geo, column := o.prop, data := d, refs := refIntensities o.ref d }, w', ?_, rfl,
        ⟨.inr rfl, .inr ⟨rfl, hs.again _ _ _ _ hq⟩, .inr ⟨hs.rows _ _ _ _ hq, rfl⟩⟩, rfl⟩
      simp [AnalysisObject.withRefs, AnalysisObject.values, href]
  · by_cases h0 : o.data = []
    · exact absurd h0 (hs.rows _ _ _ _ hl)
    have hne : o.data.isEmpty = false := by simpa using h0
    unfold AnalysisObject.withData
    simp only [hne, Bool.false_eq_true, if_false]
    right
    refine ⟨o.data, { o with dist := s.rows o.geo, column := o.prop, data := o.data, refs := refIntensities o.ref o.data }, w, ?_, by rw [hl],
      ⟨.inr rfl, .inr ⟨rfl, hl⟩, .inr ⟨h0, rfl⟩⟩, rfl⟩
    unfold AnalysisObject.withRefs AnalysisObject.values
    rcases href with h | ⟨_, h⟩
    · simp [h, hc]
    · by_cases he : o.refs = []
      · simp [he, hc]
      · have he' : o.refs.isEmpty = false := by simpa using he
        simp only [he', Bool.false_eq_true, if_false]
        rw [hc, ← h]

/-- **C188, one calculation.** An object that is up to date calculates what its settings and the files give; with several cores it has these
coefficients, with one core they are appended. If this fails so does the calculation, with the same error, and the coefficients stay. -/
theorem C188_calculate [Field K] (s : DataSources W K R G) (hs : s.Repeatable) (f : List R → List K → C) (parallel : Bool)
    (o : AnalysisObject K R G C) (w : W) (h : o.UpToDate s w) :
    let x := o.calculate s (fun d => linearSolver (f d)) parallel w
    x.2.1.UpToDate s x.2.2 ∧ x.2.1.prop = o.prop ∧ x.2.1.ref = o.ref ∧ x.2.1.geo = o.geo ∧ x.2.2 = (o.prepare s w).2.2 ∧
      match freshCoefficients s f parallel o.prop o.ref o.geo w with
      | .error e => x.1 = .error e ∧ x.2.1.stored = o.stored
      | .ok cs => x.1 = .ok () ∧ x.2.1.stored = if parallel then cs else o.stored ++ cs := by
  intro x
  rcases prepare_upToDate s hs o w h with ⟨e, o', w', hp, hl, hu, ho⟩ | ⟨d, o', w', hp, hl, hu, ho⟩
  · have hx : x = (.error e, o', w') := by simp only [x, AnalysisObject.calculate, hp]
    rw [hx]
    refine ⟨hu, by rw [ho], by rw [ho], by rw [ho], by rw [hp], ?_⟩
    simp only [freshCoefficients, hl, bind, Except.bind]
    exact ⟨trivial, by rw [ho]⟩
  · have hv : o'.values = .ok d := by rw [ho]; simp [AnalysisObject.values]
    have hr : o'.refs = refIntensities o.ref d := by rw [ho]
    have hdist : o'.dist = s.rows o.geo := by rw [ho]
    have hst : o'.stored = o.stored := by rw [ho]
    cases hq : (if parallel then poolRel d (refIntensities o.ref d) else serialRel d (refIntensities o.ref d)) with
    | error e =>
      have hx : x = (.error e, o', w') := by simp only [x, AnalysisObject.calculate, hp, hv, hr, hq]
      rw [hx]
      refine ⟨hu, by rw [ho], by rw [ho], by rw [ho], by rw [hp], ?_⟩
      simp only [freshCoefficients, hl, bind, Except.bind, hq]
      exact ⟨trivial, by rw [ho]⟩
    | ok rels =>
      have hx : x = (.ok (), { o' with stored := if parallel then rels.map (f (s.rows o.geo)) else o.stored ++ rels.map (f (s.rows o.geo)) }, w') := by
        simp only [x, AnalysisObject.calculate, hp, hv, hr, hq, hdist, hst, runSerial_linear]
        rfl
      rw [hx]
      refine ⟨⟨hu.dist, hu.data, hu.refs⟩, by rw [ho], by rw [ho], by rw [ho], by rw [hp], ?_⟩
      simp only [freshCoefficients, hl, bind, Except.bind, hq]
      exact ⟨trivial, trivial⟩

/-- Every change in a list of calls comes in time. -/
def InTimeAll [Field K] (s : DataSources W K R G) (solve : List R → ImgSolver K C) :
    AnalysisObject K R G C × W → List (ObjectCall W G) → Prop
  | _, [] => True
  | x, c :: cs => x.1.InTime c ∧ InTimeAll s solve (AnalysisObject.act s solve x c) cs

theorem act_upToDate [Field K] (s : DataSources W K R G) (hs : s.Repeatable) (f : List R → List K → C) (x : AnalysisObject K R G C × W)
    (h : x.1.UpToDate s x.2) (c : ObjectCall W G) (hc : x.1.InTime c) :
    (AnalysisObject.act s (fun d => linearSolver (f d)) x c).1.UpToDate s (AnalysisObject.act s (fun d => linearSolver (f d)) x c).2 := by
  cases c with
  | setProperty p => exact ⟨h.dist, .inl hc, h.refs⟩
  | setReference p => exact ⟨h.dist, h.data, .inl hc⟩
  | setGeometry p => exact ⟨.inl hc, h.data, h.refs⟩
  | files g => exact ⟨h.dist, .inl hc, h.refs⟩
  | calculate b => exact (C188_calculate s hs f b x.1 x.2 h).1

/-- **C188, partial.** Whatever is done with a new object, as long as every change comes before what it concerns has been kept, each calculation
with several cores gives what the settings and the files of the moment give, also after calculations that failed. Missing (and false):
changes after a calculation. -/
theorem C188_partial [Field K] (s : DataSources W K R G) (hs : s.Repeatable) (f : List R → List K → C) (p : String) (c : RefChoice) (g : G) (w : W)
    (calls : List (ObjectCall W G))
    (h : InTimeAll s (fun d => linearSolver (f d)) ((AnalysisObject.new p c g : AnalysisObject K R G C), w) calls) :
    let x := calls.foldl (AnalysisObject.act s fun d => linearSolver (f d)) ((AnalysisObject.new p c g : AnalysisObject K R G C), w)
    let y := x.1.calculate s (fun d => linearSolver (f d)) true x.2
    (∀ cs, freshCoefficients s f true x.1.prop x.1.ref x.1.geo x.2 = .ok cs ↔ y.1 = .ok () ∧ y.2.1.stored = cs) ∧
      ∀ e, freshCoefficients s f true x.1.prop x.1.ref x.1.geo x.2 = .error e ↔ y.1 = .error e := by
  have hall : ∀ (calls : List (ObjectCall W G)) (x : AnalysisObject K R G C × W), x.1.UpToDate s x.2 →
      InTimeAll s (fun d => linearSolver (f d)) x calls →
      (calls.foldl (AnalysisObject.act s fun d => linearSolver (f d)) x).1.UpToDate s
        (calls.foldl (AnalysisObject.act s fun d => linearSolver (f d)) x).2 := by
    intro calls
    induction calls with
    | nil => intro x hx _; exact hx
    | cons a t ih =>
      intro x hx ht
      exact ih _ (act_upToDate s hs f x hx a ht.1) ht.2
  intro x y
  have hu := hall calls _ (new_upToDate s p c g w) h
  obtain ⟨_, _, _, _, _, hm⟩ := C188_calculate s hs f true _ _ hu
  change match freshCoefficients s f true x.1.prop x.1.ref x.1.geo x.2 with
      | .error e => y.1 = .error e ∧ y.2.1.stored = x.1.stored
      | .ok cs => y.1 = .ok () ∧ y.2.1.stored = if true then cs else x.1.stored ++ cs at hm
  cases hq : freshCoefficients s f true x.1.prop x.1.ref x.1.geo x.2 with
  | error e =>
    rw [hq] at hm
    simp [hm.1]
  | ok cs =>
    rw [hq] at hm
    simp only [if_true] at hm
    simp only [hm.1, hm.2, true_and, Except.ok.injEq]
    simp

/-- The settings after some calls: the ones set last. -/
def settingsAfter : List (ObjectCall W G) → String × RefChoice × G → String × RefChoice × G
  | [], x => x
  | .setProperty p :: cs, x => settingsAfter cs (p, x.2)
  | .setReference c :: cs, x => settingsAfter cs (x.1, c, x.2.2)
  | .setGeometry g :: cs, x => settingsAfter cs (x.1, x.2.1, g)
  | .files _ :: cs, x => settingsAfter cs x
  | .calculate _ :: cs, x => settingsAfter cs x

/-- The files after some calls, if loading does not write any. -/
def filesAfter : List (ObjectCall W G) → W → W
  | [], w => w
  | .files f :: cs, w => filesAfter cs (f w)
  | _ :: cs, w => filesAfter cs w

theorem calculate_settings [Field K] (s : DataSources W K R G) (solve : List R → ImgSolver K C) (b : Bool) (o : AnalysisObject K R G C) (w : W) :
    (o.calculate s solve b w).2.1.prop = o.prop ∧ (o.calculate s solve b w).2.1.ref = o.ref ∧ (o.calculate s solve b w).2.1.geo = o.geo ∧
      ((∀ w p, (s.load w p).2 = w) → (o.calculate s solve b w).2.2 = w) := by
  have h1 : ∀ {A : Type} (q : AnalysisObject K R G C → A), (∀ o d, q { o with dist := d } = q o) → q (o.withDistances s) = q o := by
    intro A q hq
    unfold AnalysisObject.withDistances
    split
    · exact hq o _
    · rfl
  have p1 := h1 (·.prop) fun _ _ => rfl
  have p2 := h1 (·.ref) fun _ _ => rfl
  have p3 := h1 (·.geo) fun _ _ => rfl
  have d1 : ((o.withDistances s).withData s w).2.1.prop = o.prop ∧ ((o.withDistances s).withData s w).2.1.ref = o.ref ∧
      ((o.withDistances s).withData s w).2.1.geo = o.geo ∧
      ((∀ w p, (s.load w p).2 = w) → ((o.withDistances s).withData s w).2.2 = w) := by
    unfold AnalysisObject.withData
    split
    · split
      · rename_i e w' hl
        exact ⟨p1, p2, p3, fun hw => by have := hw w (o.withDistances s).prop; rwa [hl] at this⟩
      · rename_i d w' hl
        exact ⟨p1, p2, p3, fun hw => by have := hw w (o.withDistances s).prop; rwa [hl] at this⟩
    · exact ⟨p1, p2, p3, fun _ => rfl⟩
  have r1 : ∀ q : AnalysisObject K R G C, q.withRefs.2.prop = q.prop ∧ q.withRefs.2.ref = q.ref ∧ q.withRefs.2.geo = q.geo := by
    intro q
    unfold AnalysisObject.withRefs
    repeat' split
    all_goals exact ⟨rfl, rfl, rfl⟩
  have e1 : (o.prepare s w).2.1.prop = o.prop ∧ (o.prepare s w).2.1.ref = o.ref ∧ (o.prepare s w).2.1.geo = o.geo ∧
      ((∀ w p, (s.load w p).2 = w) → (o.prepare s w).2.2 = w) := by
    unfold AnalysisObject.prepare
    split
    · rename_i e o' w' hd
      rw [hd] at d1
      exact d1
    · rename_i u o' w' hd
      rw [hd] at d1
      have := r1 o'
      split <;> rename_i hr <;> rw [hr] at this <;>
        exact ⟨this.1.trans d1.1, this.2.1.trans d1.2.1, this.2.2.trans d1.2.2.1, d1.2.2.2⟩
  unfold AnalysisObject.calculate
  split
  · rename_i hq
    rw [hq] at e1
    exact e1
  · rename_i hq
    rw [hq] at e1
    split
    · exact e1
    · split <;> exact e1

/-- **C188, settings.** The settings of an object are the ones set last, and if loading writes no files, these are as they were made from outside:
calculations change neither. -/
theorem C188_settings [Field K] (s : DataSources W K R G) (solve : List R → ImgSolver K C) (calls : List (ObjectCall W G))
    (p : String) (c : RefChoice) (g : G) (w : W) :
    let x := calls.foldl (AnalysisObject.act s solve) ((AnalysisObject.new p c g : AnalysisObject K R G C), w)
    (x.1.prop, x.1.ref, x.1.geo) = settingsAfter calls (p, c, g) ∧ ((∀ w p, (s.load w p).2 = w) → x.2 = filesAfter calls w) := by
  have key : ∀ (calls : List (ObjectCall W G)) (x : AnalysisObject K R G C × W),
      (((calls.foldl (AnalysisObject.act s solve) x).1.prop, (calls.foldl (AnalysisObject.act s solve) x).1.ref,
        (calls.foldl (AnalysisObject.act s solve) x).1.geo) = settingsAfter calls (x.1.prop, x.1.ref, x.1.geo)) ∧
      ((∀ w p, (s.load w p).2 = w) → (calls.foldl (AnalysisObject.act s solve) x).2 = filesAfter calls x.2) := by
    intro calls
    induction calls with
    | nil => intro x; exact ⟨rfl, fun _ => rfl⟩
    | cons a t ih =>
      intro x
      rw [List.foldl_cons]
      cases a with
      | calculate b =>
        obtain ⟨e1, e2, e3, e4⟩ := calculate_settings s solve b x.1 x.2
        obtain ⟨i1, i2⟩ := ih (AnalysisObject.act s solve x (.calculate b))
        refine ⟨?_, fun hw => ?_⟩
        · rw [i1]
          change settingsAfter t ((x.1.calculate s solve b x.2).2.1.prop, (x.1.calculate s solve b x.2).2.1.ref,
            (x.1.calculate s solve b x.2).2.1.geo) = _
          rw [e1, e2, e3]
          rfl
        · rw [i2 hw]
          change filesAfter t (x.1.calculate s solve b x.2).2.2 = _
          rw [e4 hw]
          rfl
      | _ => exact ih _
  exact key calls _

/-! ### Changes that come too late -/

/-- An object that has calculated. -/
def AnalysisObject.Kept (o : AnalysisObject K R G C) : Prop := o.dist ≠ [] ∧ o.data ≠ [] ∧ o.refs ≠ []

theorem prepare_kept [Field K] (s : DataSources W K R G) (o : AnalysisObject K R G C) (w : W) (h : o.Kept) : o.prepare s w = (.ok (), o, w) := by
  have h1 : o.dist.isEmpty = false := by simpa using h.1
  have h2 : o.data.isEmpty = false := by simpa using h.2.1
  have h3 : o.refs.isEmpty = false := by simpa using h.2.2
  simp [AnalysisObject.prepare, AnalysisObject.withDistances, AnalysisObject.withData, AnalysisObject.withRefs, h1, h2, h3]

/-- **C188, too late.** Other reference images, another geometry and other files have no influence on an object that has calculated: the coefficients
are those without the change. -/
theorem C188_too_late [Field K] (s : DataSources W K R G) (solve : List R → ImgSolver K C) (parallel : Bool) (o : AnalysisObject K R G C) (h : o.Kept)
    (w w' : W) (c : RefChoice) (g : G) :
    (({ o with ref := c, geo := g } : AnalysisObject K R G C).calculate s solve parallel w').1 = (o.calculate s solve parallel w).1 ∧
    (({ o with ref := c, geo := g } : AnalysisObject K R G C).calculate s solve parallel w').2.1.stored =
      (o.calculate s solve parallel w).2.1.stored := by
  unfold AnalysisObject.calculate
  rw [prepare_kept s o w h, prepare_kept s ({ o with ref := c, geo := g } : AnalysisObject K R G C) w' h]
  have hv : AnalysisObject.values ({ o with ref := c, geo := g } : AnalysisObject K R G C) = o.values := rfl
  simp only [hv]
  cases o.values with
  | error e => exact ⟨rfl, rfl⟩
  | ok d =>
    simp only
    split <;> exact ⟨rfl, rfl⟩

/-- **C188, another property.** An object that has loaded one property raises `KeyError` for another one, and keeps its coefficients. -/
theorem C188_other_property [Field K] (s : DataSources W K R G) (solve : List R → ImgSolver K C) (parallel : Bool) (o : AnalysisObject K R G C)
    (w : W) (h : o.data ≠ []) (hp : o.prop ≠ o.column) :
    (o.calculate s solve parallel w).1 = .error .keyError ∧ (o.calculate s solve parallel w).2.1.stored = o.stored := by
  have h2 : o.data.isEmpty = false := by simpa using h
  unfold AnalysisObject.calculate AnalysisObject.prepare AnalysisObject.withDistances AnalysisObject.withData AnalysisObject.withRefs
    AnalysisObject.values
  by_cases h1 : o.dist.isEmpty <;> by_cases h3 : o.refs.isEmpty <;> simp [h1, h2, h3, hp]

/-! ### A case -/

/-- Two images of one LED, 8 and 4, whatever the property. -/
def twoImages : DataSources Unit ℚ ℕ Unit := ⟨fun w _ => (.ok [(1, 0, 8), (2, 0, 4)], w), fun _ => [1]⟩

/-- An object gives what its settings give. -/
def ObjectUsesSettings : Prop := ∀ (s : DataSources Unit ℚ ℕ Unit), s.Repeatable → ∀ (f : List ℕ → List ℚ → ℚ) (p : String) (c : RefChoice)
  (calls : List (ObjectCall Unit Unit)) (cs : List ℚ),
  let x := calls.foldl (AnalysisObject.act s fun d => linearSolver (f d)) ((AnalysisObject.new p c () : AnalysisObject ℚ ℕ Unit ℚ), ())
  freshCoefficients s f true x.1.prop x.1.ref x.1.geo x.2 = .ok cs → (x.1.calculate s (fun d => linearSolver (f d)) true x.2).2.1.stored = cs

/-- **C188 refuted**: the second image as reference, chosen after a first calculation. -/
theorem C188_false : ¬ ObjectUsesSettings := by
  intro h
  have := h twoImages ⟨fun w p d w' hl => by cases w; cases w'; exact hl, fun w p d w' hl => by
      simp only [twoImages, Prod.mk.injEq, Except.ok.injEq] at hl; rw [← hl.1]; simp⟩ (fun _ rel => rel.sum) "sum_col_val" (.first 1)
    [.calculate true, .setReference (.ids [2])] [2, 1] (by decide +kernel)
  revert this
  decide +kernel

/-! ### Correction of colours by the object -/

/-- The sources of an object: the binary file of its channel in the directory of its experiment. -/
noncomputable def hdfSources (channel arr : ℕ) (path : Str) (rows : G → List R) : DataSources HdfWorld ℝ R G := ⟨loadFrom channel arr path, rows⟩

theorem arrayData_nonempty {t : List (ℕ × ℕ × ℕ × K)} {arr : ℕ} {d : ImgData K} (h : arrayData t arr = .ok d) : d ≠ [] := by
  unfold arrayData at h
  split at h
  · cases h
  · rename_i hne
    rintro rfl
    exact hne (Except.ok.inj h)

/-- Binary files can be read again. -/
theorem hdfSources_repeatable (channel arr : ℕ) (path : Str) (rows : G → List R) : (hdfSources channel arr path rows).Repeatable := by
  have key : ∀ w f w', readHdf w channel path = (.ok f, w') → readHdf w' channel path = (.ok f, w') := by
    intro w f w' h
    unfold readHdf at h
    split at h
    · rename_i g hg
      simp only [Prod.mk.injEq, Except.ok.injEq] at h
      rw [← h.2, ← h.1]
      unfold readHdf
      rw [hg]
    · split at h
      · cases h
      · split at h
        · rename_i g hg
          simp only [Prod.mk.injEq, Except.ok.injEq] at h
          rw [← h.2, ← h.1]
          unfold readHdf
          rw [hg]
        · cases h
  constructor
  · intro w p d w' h
    simp only [hdfSources, loadFrom] at h ⊢
    split at h
    · cases h
    · rename_i f w1 hr
      simp only [Prod.mk.injEq] at h
      have := key _ _ _ hr
      rw [← h.2, this]
      simp only [h.1]
  · intro w p d w' h
    simp only [hdfSources, loadFrom] at h
    split at h
    · cases h
    · rename_i f w1 hr
      simp only [Prod.mk.injEq] at h
      unfold frameData at h
      split at h
      · exact arrayData_nonempty h.1
      · cases h.1

/-- **C188, colours.** An object for the corrected property that corrects the colours of the channels in the working directory, which is that of its
experiment, gives what the values before mixing give, also if a calculation was tried before, which raises `KeyError`. -/
theorem C188_colours {n : ℕ} (to16 : Int16Cast) (nan : ℤ) (M : Matrix (Fin n) (Fin n) ℚ) (hM : M.det ≠ 0)
    (w : HdfWorld) (f : ℕ → DataTable) (prop : String) (N : ℕ) (v : ℕ → ℕ → ℚ) (h : RecordedTables w (List.range n) f prop N v)
    (hp : prop ≠ "led_array_id") (orig : ℕ → ℕ → ℤ) (h16 : ∀ c < n, ∀ i < N, Is16 (orig c i))
    (hmix : ∀ i < N, ∀ c : Fin n, v c i = ∑ j : Fin n, M c j * (orig j i : ℚ)) (c : Fin n) (t : DataTable)
    (ht : setColumn (f c) prop ((List.range N).map fun (i : ℕ) => (orig c i : ℚ)) = .ok t)
    (hnew : prop ++ "_cc" ∉ (f c).cols) (arr : ℕ) (rows : G → List R) (g : List R → List ℝ → C) (ref : RefChoice) (geo : G) (tries : List Bool) :
    let s : DataSources HdfWorld ℝ R G := hdfSources c arr w.cwd rows
    let solve := fun d => linearSolver (g d)
    let o : AnalysisObject ℝ R G C := AnalysisObject.new (prop ++ "_cc") ref geo
    let x := (tries.map fun b => ObjectCall.calculate b).foldl (AnalysisObject.act s solve) (o, w)
    (∀ b, (x.1.calculate s solve b x.2).1 = .error .keyError) ∧ x.2 = w ∧
    ∃ w', methodColourCorrect to16 nan M prop n x.2 = (.ok (), w') ∧ ∀ cs,
      (x.1.calculate s solve true w').1 = .ok () ∧ (x.1.calculate s solve true w').2.1.stored = cs ↔
        (do let d ← frameData t prop arr
            let rels ← poolRel d (refIntensities ref d)
            Except.ok (rels.map (g (rows geo)))) = .ok cs := by
  intro s solve o x
  have hs : s.Repeatable := hdfSources_repeatable c arr w.cwd rows
  have hload : s.load w (prop ++ "_cc") = (.error .keyError, w) := by
    simp only [s, hdfSources, loadFrom]
    have : readHdf w c w.cwd = (.ok (f c), w) := by
      unfold readHdf
      rw [h.table c (by simp)]
    rw [this]
    simp only [frameData, if_neg hnew]
  have hfail : ∀ (o : AnalysisObject ℝ R G C) b, o.prop = prop ++ "_cc" → o.data = [] →
      o.calculate s solve b w = (.error .keyError, o.withDistances s, w) := by
    intro o b h1 h2
    have e1 : (o.withDistances s).prop = prop ++ "_cc" := by unfold AnalysisObject.withDistances; split <;> exact h1
    have e2 : (o.withDistances s).data = [] := by unfold AnalysisObject.withDistances; split <;> exact h2
    unfold AnalysisObject.calculate AnalysisObject.prepare AnalysisObject.withData
    rw [e1, e2, hload]
    rfl
  have htries : ∀ (tries : List Bool) (o : AnalysisObject ℝ R G C), o.UpToDate s w → o.prop = prop ++ "_cc" → o.ref = ref → o.geo = geo →
      o.data = [] → o.refs = [] →
      let x := (tries.map fun b => ObjectCall.calculate b).foldl (AnalysisObject.act s solve) (o, w)
      x.2 = w ∧ x.1.prop = prop ++ "_cc" ∧ x.1.ref = ref ∧ x.1.geo = geo ∧ x.1.data = [] ∧ x.1.refs = [] ∧
        (x.1.dist = [] ∨ x.1.dist = rows geo) := by
    intro tries
    induction tries with
    | nil =>
      intro o hu h1 h2 h3 h4 h5
      exact ⟨rfl, h1, h2, h3, h4, h5, by have := hu.dist; rwa [h3] at this⟩
    | cons b tries ih =>
      intro o hu h1 h2 h3 h4 h5
      have e : AnalysisObject.act s solve (o, w) (.calculate b) = (o.withDistances s, w) := by
        change (o.calculate s solve b w).2 = _
        rw [hfail o b h1 h4]
      have hu' : (o.withDistances s).UpToDate s w := by
        have := act_upToDate s hs g (o, w) hu (.calculate b) trivial
        rwa [e] at this
      have k : ∀ {A : Type} (q : AnalysisObject ℝ R G C → A), (∀ o d, q { o with dist := d } = q o) → q (o.withDistances s) = q o := by
        intro A q hq
        unfold AnalysisObject.withDistances
        split
        · exact hq o _
        · rfl
      simp only [List.map_cons, List.foldl_cons]
      rw [e]
      exact ih _ hu' (by rw [k (·.prop) (fun _ _ => rfl), h1]) (by rw [k (·.ref) (fun _ _ => rfl), h2]) (by rw [k (·.geo) (fun _ _ => rfl), h3])
        (by rw [k (·.data) (fun _ _ => rfl), h4]) (by rw [k (·.refs) (fun _ _ => rfl), h5])
  obtain ⟨q1, q2, q3, q4, q5, q6, q7⟩ := htries tries o (new_upToDate s _ _ _ w) rfl rfl rfl rfl rfl
  change x.2 = w at q1
  refine ⟨fun b => by rw [q1, hfail x.1 b q2 q5], q1, ?_⟩
  obtain ⟨t', w', hc1, hc2, hc3, _⟩ := C143_analysis_partial to16 nan M hM w f prop N v h hp orig h16 hmix c t ht
  have hcwd : w'.cwd = w.cwd := by
    have hn : 0 < n := Nat.pos_of_ne_zero (by rintro rfl; exact c.elim0)
    obtain ⟨w2, he, _, _, _, _, _, hcw, _⟩ := C143_corrected_partial to16 nan M hM hn w f prop N v h
    rw [hc1] at he
    rw [(Prod.mk.inj he).2, hcw]
  refine ⟨w', by rw [q1]; exact hc1, fun cs => ?_⟩
  have hu : x.1.UpToDate s w' := ⟨by rw [show x.1.geo = geo from q4]; exact q7, .inl q5, .inl q6⟩
  obtain ⟨_, _, _, _, _, hm⟩ := C188_calculate s hs g true x.1 w' hu
  have hl : (s.load w' x.1.prop).1 = frameData t prop arr := by
    rw [show x.1.prop = prop ++ "_cc" from q2]
    simp only [s, hdfSources, loadFrom]
    rw [← hcwd, hc2]
    exact hc3 arr
  have hf : freshCoefficients s g true x.1.prop x.1.ref x.1.geo w' =
      (do let d ← frameData t prop arr
          let rels ← poolRel d (refIntensities ref d)
          Except.ok (rels.map (g (rows geo)))) := by
    unfold freshCoefficients
    rw [hl, show x.1.ref = ref from q3, show x.1.geo = geo from q4]
    rfl
  rw [hf] at hm
  split at hm
  · rename_i e he
    rw [he]
    simp [solve, hm.1]
  · rename_i cs' he
    rw [he]
    simp only [if_true] at hm
    simp [solve, hm.1, hm.2]

/-- **C188, elsewhere.** The method corrects the files of the working directory. If the experiment is in another one, the object reads what it
would have read without the correction. -/
theorem C188_elsewhere {n : ℕ} (to16 : Int16Cast) (nan : ℤ) (M : Matrix (Fin n) (Fin n) ℚ) (hM : M.det ≠ 0) (hn : 0 < n)
    (w : HdfWorld) (f : ℕ → DataTable) (prop : String) (N : ℕ) (v : ℕ → ℕ → ℚ) (h : RecordedTables w (List.range n) f prop N v)
    (path : Str) (hpath : path ≠ w.cwd) (c : ℕ) (t : DataTable) (ht : w.binary path c = some t) (arr : ℕ) (p : String) :
    ∃ w', methodColourCorrect to16 nan M prop n w = (.ok (), w') ∧ (loadFrom c arr path w' p).1 = (loadFrom c arr path w p).1 := by
  obtain ⟨w', h1, _, h2, _⟩ := C143_corrected_partial to16 nan M hM hn w f prop N v h
  refine ⟨w', h1, ?_⟩
  have hb : w'.binary path c = some t := by rw [h2 path c (fun hc => hpath hc.1), ht]
  unfold loadFrom readHdf
  rw [hb, ht]

/-- **C188, number of channels.** With another number of channels than rows of the matrix the method raises `ValueError` and changes nothing. -/
theorem C188_channels {n : ℕ} (to16 : Int16Cast) (nan : ℤ) (M : Matrix (Fin n) (Fin n) ℚ) (hM : M.det ≠ 0) (k : ℕ) (hk : k ≠ n)
    (w : HdfWorld) (f : ℕ → DataTable) (prop : String) (N : ℕ) (v : ℕ → ℕ → ℚ) (h : RecordedTables w (List.range k) f prop N v) :
    methodColourCorrect to16 nan M prop k w = (.error .valueError, w) := by
  unfold methodColourCorrect colourCorrect
  rw [if_neg hM]
  by_cases h0 : k = 0
  · subst h0
    rfl
  have hne : List.range k ≠ [] := by simpa using h0
  have hd : 0 ∈ List.range k := by simp; omega
  rw [readColumns_present prop w f _ _ h.table (h.keyed 0 hd)]
  simp only
  rw [beside_same (f 0).keys (fun c i => some (v c i)) _ hne]
  simp only
  rw [if_pos (by simpa using hk)]

-- the two channels of `mixedWorld` with a matrix of three rows
example (nan : ℤ) : methodColourCorrect satCast nan (1 : Matrix (Fin 3) (Fin 3) ℚ) "sum_col_val" 2 mixedWorld = (.error .valueError, mixedWorld) :=
  C188_channels satCast nan 1 (by simp) 2 (by decide) mixedWorld mixedTable "sum_col_val" 2 mixedValue mixedWorld_recorded

end Ledsa
