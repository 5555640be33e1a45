import Verif.Props.Pipeline
import Verif.Props.NonlinearRun
import Verif.Props.WholeRun

/-!
# Every image has its own coefficients (C148)

The coefficients of an image depend on the values measured in this image and in the reference images, and on nothing else: not on
other images, not on images taken later.
-/

namespace Ledsa

/-- What both solvers have in common: `P rel r` says that `r` may be the result for the relative intensities `rel` of one image. -/
def SeriesResult {C : Type} (P : List ℝ → Except PyErr C → Prop) (rels : List (List ℝ)) (r : Except PyErr (List C)) : Prop :=
  ∃ rs, List.Forall₂ P rels rs ∧ r = rs.mapM id

theorem mapM_id_ok_iff {C : Type} : ∀ (rs : List (Except PyErr C)) (cs : List C), rs.mapM id = .ok cs ↔ rs = cs.map .ok := by
  intro rs
  induction rs with
  | nil =>
    intro cs
    constructor
    · intro h; cases h; rfl
    · intro h; cases cs with
      | nil => rfl
      | cons c cs => cases h
  | cons x xs ih =>
    intro cs
    rw [List.mapM_cons]
    cases x with
    | error e =>
      constructor
      · intro h; cases h
      · intro h; cases cs with
        | nil => cases h
        | cons c cs => simp at h
    | ok y =>
      cases hx : xs.mapM id with
      | error e =>
        constructor
        · intro h; cases h
        · intro h
          cases cs with
          | nil => cases h
          | cons c cs =>
            simp only [List.map_cons, List.cons.injEq, Except.ok.injEq] at h
            rw [(ih cs).2 h.2] at hx
            cases hx
      | ok ys =>
        have e := (ih ys).1 hx
        constructor
        · intro h
          cases h
          rw [e]; rfl
        · intro h
          cases cs with
          | nil => cases h
          | cons c cs =>
            simp only [List.map_cons, List.cons.injEq, Except.ok.injEq] at h
            rw [(ih cs).2 h.2] at hx
            cases hx
            rw [h.1]; rfl

theorem seriesResult_ok_iff {C : Type} (P : List ℝ → Except PyErr C → Prop) (rels : List (List ℝ)) (cs : List C) :
    SeriesResult P rels (.ok cs) ↔ List.Forall₂ (fun rel c => P rel (.ok c)) rels cs := by
  unfold SeriesResult
  constructor
  · rintro ⟨rs, h, hr⟩
    rw [(mapM_id_ok_iff rs cs).1 hr.symm, List.forall₂_map_right_iff] at h
    exact h
  · intro h
    exact ⟨cs.map .ok, List.forall₂_map_right_iff.2 h, ((mapM_id_ok_iff _ _).2 rfl).symm⟩

/-- The relative intensities of image `i` in a complete table. -/
noncomputable def relOf (c : RefChoice) (N : ℕ) (leds : List ℕ) (v : ℕ → ℕ → ℝ) (i : ℕ) : List ℝ :=
  leds.map fun l => v i l / meanOver ((firstImgs N).filter c.selects) v l

theorem solverInput_table (a : ArrayAnalysis) (files : ℕ → List (ℕ × ℕ × ℝ)) (N : ℕ) (hN : 0 < N) (leds : List ℕ) (v : ℕ → ℕ → ℝ)
    (hl : leds.Pairwise (· < ·)) (hne : leds ≠ []) (hnd : ∀ i, 1 ≤ i → i ≤ N → ((files i).map (·.1)).Nodup)
    (hm : ∀ i, 1 ≤ i → i ≤ N → ∀ l x, (l, a.arr, x) ∈ files i ↔ l ∈ leds ∧ x = v i l)
    (href : ∃ i, 1 ≤ i ∧ i ≤ N ∧ a.ref.selects i = true) (pos : List P3) (hp : ledPositions a.coordinates a.ids = .ok pos) :
    a.solverInput files N = .ok (distanceArray a.cam (layers a.lo a.hi a.layers) pos, (firstImgs N).map (relOf a.ref N leds v)) := by
  obtain ⟨i0, hi1, hi2, hi3⟩ := href
  have hsel : ∃ i ∈ firstImgs N, a.ref.selects i = true := ⟨i0, (mem_firstImgs N i0).2 ⟨hi1, hi2⟩, hi3⟩
  have hrel := C46_value a.ref (firstImgs N) leds v (firstImgs_sorted N) hl hne hsel
  unfold ArrayAnalysis.solverInput ArrayAnalysis.inputOf
  rw [hp, arrayData_ok files N a.arr hN leds v hl hne hnd hm]
  simp only [bind, Except.bind]
  cases a.parallel with
  | false => simp only [Bool.false_eq_true, if_false]; rw [hrel]; rfl
  | true =>
    simp only [if_true]
    rw [C45_same_intensities N hN leds v hl hne, hrel]
    rfl

/-- Reference images are the same in both series, with the same values. -/
def SameReferences (c : RefChoice) (leds : List ℕ) (N N' : ℕ) (v v' : ℕ → ℕ → ℝ) : Prop :=
  ∀ i, 1 ≤ i → c.selects i = true → (i ≤ N ↔ i ≤ N') ∧ ∀ l ∈ leds, v i l = v' i l

theorem filter_firstImgs_aux (f : ℕ → Bool) (N N' : ℕ) (hle : N ≤ N') (h : ∀ i, 1 ≤ i → f i = true → i ≤ N' → i ≤ N) :
    (firstImgs N').filter f = (firstImgs N).filter f := by
  obtain ⟨d, rfl⟩ := Nat.exists_eq_add_of_le hle
  induction d with
  | zero => rfl
  | succ d ih =>
    have e : firstImgs (N + (d + 1)) = firstImgs (N + d) ++ [N + d + 1] := by
      unfold firstImgs
      rw [← Nat.add_assoc, List.range_succ, List.map_append]; rfl
    rw [e, List.filter_append, ih (by omega) fun i h1 h2 h3 => h i h1 h2 (by omega)]
    have : f (N + d + 1) = false := by
      cases hf : f (N + d + 1) with
      | false => rfl
      | true => have := h _ (by omega) hf (by omega); omega
    simp [this]

theorem SameReferences.images {c : RefChoice} {leds : List ℕ} {N N' : ℕ} {v v' : ℕ → ℕ → ℝ} (h : SameReferences c leds N N' v v') :
    (firstImgs N).filter c.selects = (firstImgs N').filter c.selects := by
  rcases le_total N N' with hle | hle
  · exact (filter_firstImgs_aux c.selects N N' hle fun i h1 h2 h3 => (h i h1 h2).1.2 h3).symm
  · exact filter_firstImgs_aux c.selects N' N hle fun i h1 h2 h3 => (h i h1 h2).1.1 h3

theorem SameReferences.rel {c : RefChoice} {leds : List ℕ} {N N' : ℕ} {v v' : ℕ → ℕ → ℝ} (h : SameReferences c leds N N' v v') (i : ℕ)
    (hi : ∀ l ∈ leds, v i l = v' i l) : relOf c N leds v i = relOf c N' leds v' i := by
  unfold relOf
  refine List.map_congr_left fun l hl => ?_
  rw [hi l hl, h.images]
  congr 1
  unfold meanOver
  congr 2
  refine List.map_congr_left fun j hj => ?_
  obtain ⟨h1, h2⟩ := List.mem_filter.1 hj
  exact (h j ((mem_firstImgs _ _).1 h1).1 h2).2 l hl

open Classical in
/-- The coefficients of the first series for the images whose values are the same, and of the second series for the others. -/
noncomputable def takeOver {C : Type} [Inhabited C] (leds : List ℕ) (N N' : ℕ) (v v' : ℕ → ℕ → ℝ) (cs cs' : List C) : List C :=
  (firstImgs N').map fun i => if i ≤ N ∧ ∀ l ∈ leds, v i l = v' i l then cs.getD (i - 1) default else cs'.getD (i - 1) default

theorem forall₂_firstImgs {α C : Type} [Inhabited C] (P : α → C → Prop) (g : ℕ → α) (N : ℕ) (cs : List C) :
    List.Forall₂ P ((firstImgs N).map g) cs ↔ cs.length = N ∧ ∀ i, 1 ≤ i → i ≤ N → P (g i) (cs.getD (i - 1) default) := by
  rw [List.forall₂_iff_get]
  have hlen : ((firstImgs N).map g).length = N := by simp [firstImgs]
  constructor
  · rintro ⟨h1, h2⟩
    refine ⟨by omega, fun i hi1 hi2 => ?_⟩
    have := h2 (i - 1) (by omega) (by omega)
    simp only [List.get_eq_getElem] at this
    have e : ((firstImgs N).map g)[i - 1]'(by omega) = g i := by
      simp only [List.getElem_map, firstImgs, List.getElem_range]
      congr 1; omega
    rw [e] at this
    rw [List.getD_eq_getElem?_getD, List.getElem?_eq_getElem (by omega)]
    exact this
  · rintro ⟨h1, h2⟩
    refine ⟨by omega, fun i hi1 hi2 => ?_⟩
    have := h2 (i + 1) (by omega) (by omega)
    simp only [List.get_eq_getElem]
    have e : ((firstImgs N).map g)[i]'(by omega) = g (i + 1) := by
      simp only [List.getElem_map, firstImgs, List.getElem_range]
    rw [e]
    rw [List.getD_eq_getElem?_getD, Nat.add_sub_cancel, List.getElem?_eq_getElem (by omega)] at this
    exact this

theorem series_local {C : Type} [Inhabited C] (P : List ℝ → Except PyErr C → Prop) (c : RefChoice) (leds : List ℕ) (N N' : ℕ)
    (v v' : ℕ → ℕ → ℝ) (hs : SameReferences c leds N N' v v') (cs cs' : List C)
    (h : SeriesResult P ((firstImgs N).map (relOf c N leds v)) (.ok cs))
    (h' : SeriesResult P ((firstImgs N').map (relOf c N' leds v')) (.ok cs')) :
    SeriesResult P ((firstImgs N').map (relOf c N' leds v')) (.ok (takeOver leds N N' v v' cs cs')) := by
  rw [seriesResult_ok_iff, forall₂_firstImgs] at h h' ⊢
  refine ⟨by simp [takeOver, firstImgs], fun i hi1 hi2 => ?_⟩
  have e : (takeOver leds N N' v v' cs cs').getD (i - 1) default =
      open Classical in if i ≤ N ∧ ∀ l ∈ leds, v i l = v' i l then cs.getD (i - 1) default else cs'.getD (i - 1) default := by
    unfold takeOver
    rw [List.getD_eq_getElem?_getD, List.getElem?_map]
    have : (firstImgs N')[i - 1]? = some i := by
      unfold firstImgs
      rw [List.getElem?_map, List.getElem?_range (by omega)]
      simp; omega
    rw [this]; rfl
  rw [e]
  split
  · next hc =>
    rw [← hs.rel i hc.2]
    exact h.2 i hi1 hc.1
  · exact h'.2 i hi1 hi2

/-- The result files of the images `1..N` hold for the array `arr` exactly the LEDs `leds` with the values `v`, and some of these images
is a reference image. -/
structure CompleteSeries (c : RefChoice) (arr : ℕ) (files : ℕ → List (ℕ × ℕ × ℝ)) (N : ℕ) (leds : List ℕ) (v : ℕ → ℕ → ℝ) : Prop where
  pos : 0 < N
  sorted : leds.Pairwise (· < ·)
  ne : leds ≠ []
  nodup : ∀ i, 1 ≤ i → i ≤ N → ((files i).map (·.1)).Nodup
  rows : ∀ i, 1 ≤ i → i ≤ N → ∀ l x, (l, arr, x) ∈ files i ↔ l ∈ leds ∧ x = v i l
  ref : ∃ i, 1 ≤ i ∧ i ≤ N ∧ c.selects i = true

theorem CompleteSeries.input {a : ArrayAnalysis} {files : ℕ → List (ℕ × ℕ × ℝ)} {N : ℕ} {leds : List ℕ} {v : ℕ → ℕ → ℝ}
    (h : CompleteSeries a.ref a.arr files N leds v) (pos : List P3) (hp : ledPositions a.coordinates a.ids = .ok pos) :
    a.solverInput files N = .ok (distanceArray a.cam (layers a.lo a.hi a.layers) pos, (firstImgs N).map (relOf a.ref N leds v)) :=
  solverInput_table a files N h.pos leds v h.sorted h.ne h.nodup h.rows h.ref pos hp

theorem positions_missing (a : ArrayAnalysis) (files : ℕ → List (ℕ × ℕ × ℝ)) (N : ℕ) (e : PyErr)
    (hp : ledPositions a.coordinates a.ids = .error e) : a.solverInput files N = .error e := by
  unfold ArrayAnalysis.solverInput ArrayAnalysis.inputOf
  rw [hp]; rfl

/-- **C148.** Two series of images of the same array whose reference images are the same: for every image with the same values in
both, whatever the first analysis found is a possible result of the second; all other images and the numbers of images may differ.
For both solvers, and for any number of cores. -/
theorem C148_local (a : ArrayAnalysis) (o : NonlinearOptions) (files files' : ℕ → List (ℕ × ℕ × ℝ)) (N N' : ℕ) (leds : List ℕ)
    (v v' : ℕ → ℕ → ℝ) (hc : CompleteSeries a.ref a.arr files N leds v) (hc' : CompleteSeries a.ref a.arr files' N' leds v')
    (hs : SameReferences a.ref leds N N' v v') (cs cs' : List (Fin a.layers → ℝ)) :
    (a.Result files N (.ok cs) → a.Result files' N' (.ok cs') → a.Result files' N' (.ok (takeOver leds N N' v v' cs cs'))) ∧
    (a.NonlinearResultOf o (a.solverInput files N) (.ok cs) → a.NonlinearResultOf o (a.solverInput files' N') (.ok cs') →
      a.NonlinearResultOf o (a.solverInput files' N') (.ok (takeOver leds N N' v v' cs cs'))) := by
  unfold ArrayAnalysis.Result
  cases hp : ledPositions a.coordinates a.ids with
  | error e =>
    rw [positions_missing a files N e hp]
    constructor
    · intro h; cases h
    · intro h; cases h
  | ok pos =>
    rw [hc.input pos hp, hc'.input pos hp]
    exact ⟨series_local _ a.ref leds N N' v v' hs cs cs', series_local _ a.ref leds N N' v v' hs cs cs'⟩

/-- **C148, images taken later**: the analysis of the first `N'` images gives what the analysis of all `N` images gives for these, if
the reference images are among them. -/
theorem C148_prefix (a : ArrayAnalysis) (o : NonlinearOptions) (files : ℕ → List (ℕ × ℕ × ℝ)) (N N' : ℕ) (hN' : 0 < N') (hle : N' ≤ N)
    (leds : List ℕ) (v : ℕ → ℕ → ℝ) (hc : CompleteSeries a.ref a.arr files N leds v)
    (href : ∀ i, 1 ≤ i → i ≤ N → a.ref.selects i = true → i ≤ N') (cs : List (Fin a.layers → ℝ)) :
    (a.Result files N (.ok cs) → a.Result files N' (.ok (cs.take N'))) ∧
    (a.NonlinearResultOf o (a.solverInput files N) (.ok cs) → a.NonlinearResultOf o (a.solverInput files N') (.ok (cs.take N'))) := by
  have hc' : CompleteSeries a.ref a.arr files N' leds v := by
    obtain ⟨i, h1, h2, h3⟩ := hc.ref
    exact ⟨hN', hc.sorted, hc.ne, fun i h1 h2 => hc.nodup i h1 (by omega), fun i h1 h2 => hc.rows i h1 (by omega), i, h1, href i h1 h2 h3, h3⟩
  have key : ∀ (c : RefChoice) (P : List ℝ → Except PyErr (Fin a.layers → ℝ) → Prop),
      (∀ i, 1 ≤ i → i ≤ N → c.selects i = true → i ≤ N') → SeriesResult P ((firstImgs N).map (relOf c N leds v)) (.ok cs) →
      SeriesResult P ((firstImgs N').map (relOf c N' leds v)) (.ok (cs.take N')) := by
    intro c P hcs h
    have hrel : ∀ i, relOf c N' leds v i = relOf c N leds v i := by
      intro i
      unfold relOf
      rw [filter_firstImgs_aux c.selects N' N hle fun i h1 h2 h3 => hcs i h1 h3 h2]
    rw [seriesResult_ok_iff, forall₂_firstImgs] at h ⊢
    refine ⟨by rw [List.length_take]; omega, fun i hi1 hi2 => ?_⟩
    rw [hrel]
    have := h.2 i hi1 (by omega)
    rw [List.getD_eq_getElem?_getD, List.getElem?_take, if_pos (by omega), ← List.getD_eq_getElem?_getD]
    exact this
  unfold ArrayAnalysis.Result
  cases hp : ledPositions a.coordinates a.ids with
  | error e =>
    rw [positions_missing a files N e hp]
    constructor
    · intro h; cases h
    · intro h; cases h
  | ok pos =>
    rw [hc.input pos hp, hc'.input pos hp]
    exact ⟨key a.ref _ href, key a.ref _ href⟩

theorem linear_errors (n : ℕ) (rows : List (Option (List ℝ))) (lam : ℝ) (m : ℕ) :
    (∀ rel : List ℝ, rel.length = m → ∀ r, LinearImage n rows lam rel r ↔ r = .error .valueError) ∨
    (∀ rel : List ℝ, rel.length = m → ∀ r, LinearImage n rows lam rel r → ∃ σ, r = .ok σ) := by
  unfold LinearImage
  cases rows.mapM id with
  | none => left; intro rel _ r; rfl
  | some M =>
    by_cases hm : m = M.length
    · right
      rintro rel rfl r h
      simp only [hm, if_true] at h
      obtain ⟨σ, h1, _⟩ := h
      exact ⟨σ, h1⟩
    · left
      rintro rel rfl r
      simp only [if_neg hm]

theorem series_all_errors {C : Type} (P : List ℝ → Except PyErr C → Prop) (rels : List (List ℝ)) (hne : rels ≠ [])
    (h : ∀ rel ∈ rels, ∀ r, P rel r ↔ r = .error .valueError) (r : Except PyErr (List C)) :
    SeriesResult P rels r ↔ r = .error .valueError := by
  cases rels with
  | nil => exact absurd rfl hne
  | cons rel rels =>
    constructor
    · rintro ⟨rs, h1, rfl⟩
      cases h1 with
      | cons h2 h3 => rw [(h rel (by simp) _).1 h2]; rfl
    · rintro rfl
      refine ⟨(rel :: rels).map fun _ => .error .valueError, ?_, rfl⟩
      rw [List.forall₂_map_right_iff, List.forall₂_same]
      intro x hx
      exact (h x hx _).2 rfl

theorem series_no_errors {C : Type} (P : List ℝ → Except PyErr C → Prop) (rels : List (List ℝ))
    (h : ∀ rel ∈ rels, ∀ r, P rel r → ∃ σ, r = .ok σ) (r : Except PyErr (List C)) (hr : SeriesResult P rels r) : ∃ cs, r = .ok cs := by
  obtain ⟨rs, h1, rfl⟩ := hr
  induction h1 with
  | nil => exact ⟨[], rfl⟩
  | cons h2 h3 ih =>
    obtain ⟨σ, hσ⟩ := h _ (by simp) _ h2
    obtain ⟨cs, hcs⟩ := ih fun rel hrel => h rel (List.mem_cons_of_mem _ hrel)
    refine ⟨σ :: cs, ?_⟩
    rw [List.mapM_cons, hcs, hσ]; rfl

/-- **C148, failures**: the linear analysis fails for the one series if and only if it fails for the other, with the same exception;
here even the reference images may differ. -/
theorem C148_errors (a : ArrayAnalysis) (files files' : ℕ → List (ℕ × ℕ × ℝ)) (N N' : ℕ) (leds : List ℕ)
    (v v' : ℕ → ℕ → ℝ) (hc : CompleteSeries a.ref a.arr files N leds v) (hc' : CompleteSeries a.ref a.arr files' N' leds v') (e : PyErr) :
    a.Result files N (.error e) ↔ a.Result files' N' (.error e) := by
  unfold ArrayAnalysis.Result
  cases hp : ledPositions a.coordinates a.ids with
  | error x =>
    rw [positions_missing a files N x hp, positions_missing a files' N' x hp]
  | ok pos =>
    rw [hc.input pos hp, hc'.input pos hp]
    have ne : ∀ N, 0 < N → ∀ v : ℕ → ℕ → ℝ, (firstImgs N).map (relOf a.ref N leds v) ≠ [] := by
      intro N hN v h
      have := congrArg List.length h
      simp [firstImgs] at this
      omega
    have len : ∀ (N : ℕ) (v : ℕ → ℕ → ℝ), ∀ rel ∈ (firstImgs N).map (relOf a.ref N leds v), rel.length = leds.length := by
      intro N v rel h
      obtain ⟨i, _, rfl⟩ := List.mem_map.1 h
      simp [relOf]
    rcases linear_errors a.layers (distanceArray a.cam (layers a.lo a.hi a.layers) pos) a.lam leds.length with h | h
    · exact (series_all_errors _ _ (ne N hc.pos v) (fun rel hr => h rel (len N v rel hr)) (.error e)).trans
        (series_all_errors _ _ (ne N' hc'.pos v') (fun rel hr => h rel (len N' v' rel hr)) (.error e)).symm
    · constructor
      · intro hr
        obtain ⟨cs, hcs⟩ := series_no_errors _ _ (fun rel hr => h rel (len N v rel hr)) _ hr
        cases hcs
      · intro hr
        obtain ⟨cs, hcs⟩ := series_no_errors _ _ (fun rel hr => h rel (len N' v' rel hr)) _ hr
        cases hcs

/-! ### From the photos -/

theorem table_input (a : ArrayAnalysis) (N : ℕ) (hN : 0 < N) (leds : List ℕ) (v : ℕ → ℕ → ℝ) (hl : leds.Pairwise (· < ·)) (hne : leds ≠ [])
    (href : ∃ i, 1 ≤ i ∧ i ≤ N ∧ a.ref.selects i = true) (pos : List P3) (hp : ledPositions a.coordinates a.ids = .ok pos) :
    a.inputOf (.ok (tableOf (firstImgs N) leds v)) =
      .ok (distanceArray a.cam (layers a.lo a.hi a.layers) pos, (firstImgs N).map (relOf a.ref N leds v)) := by
  obtain ⟨i0, hi1, hi2, hi3⟩ := href
  have hsel : ∃ i ∈ firstImgs N, a.ref.selects i = true := ⟨i0, (mem_firstImgs N i0).2 ⟨hi1, hi2⟩, hi3⟩
  have hrel := C46_value a.ref (firstImgs N) leds v (firstImgs_sorted N) hl hne hsel
  unfold ArrayAnalysis.inputOf
  rw [hp]
  simp only [bind, Except.bind]
  cases a.parallel with
  | false => simp only [Bool.false_eq_true, if_false]; rw [hrel]; rfl
  | true =>
    simp only [if_true]
    rw [C45_same_intensities N hN leds v hl hne, hrel]
    rfl

/-- The same for tables. -/
theorem table_local (a : ArrayAnalysis) (o : NonlinearOptions) (N N' : ℕ) (hN : 0 < N) (hN' : 0 < N') (leds : List ℕ)
    (hl : leds.Pairwise (· < ·)) (hne : leds ≠ []) (v v' : ℕ → ℕ → ℝ)
    (href : ∃ i, 1 ≤ i ∧ i ≤ N ∧ a.ref.selects i = true) (href' : ∃ i, 1 ≤ i ∧ i ≤ N' ∧ a.ref.selects i = true)
    (hs : SameReferences a.ref leds N N' v v') (cs cs' : List (Fin a.layers → ℝ)) :
    (a.ResultOf (a.inputOf (.ok (tableOf (firstImgs N) leds v))) (.ok cs) → a.ResultOf (a.inputOf (.ok (tableOf (firstImgs N') leds v'))) (.ok cs') →
      a.ResultOf (a.inputOf (.ok (tableOf (firstImgs N') leds v'))) (.ok (takeOver leds N N' v v' cs cs'))) ∧
    (a.NonlinearResultOf o (a.inputOf (.ok (tableOf (firstImgs N) leds v))) (.ok cs) →
      a.NonlinearResultOf o (a.inputOf (.ok (tableOf (firstImgs N') leds v'))) (.ok cs') →
      a.NonlinearResultOf o (a.inputOf (.ok (tableOf (firstImgs N') leds v'))) (.ok (takeOver leds N N' v v' cs cs'))) := by
  cases hp : ledPositions a.coordinates a.ids with
  | error e =>
    have : ∀ d, a.inputOf d = .error e := by intro d; unfold ArrayAnalysis.inputOf; rw [hp]; rfl
    rw [this]
    constructor
    · intro h; cases h
    · intro h; cases h
  | ok pos =>
    rw [table_input a N hN leds v hl hne href pos hp, table_input a N' hN' leds v' hl hne href' pos hp]
    exact ⟨series_local _ a.ref leds N N' v v' hs cs cs', series_local _ a.ref leds N N' v v' hs cs cs'⟩

/-- The LEDs look the same in both photos: the same sums around all their pixels. Everything else in the photos may differ. -/
def SameLight (t : LedTable) (R : ℕ) (img img' : Image ℚ) : Prop :=
  ∀ old p, (old, p) ∈ t → ∑ q ∈ area img p.1 p.2 R, img.px q.1 q.2 = ∑ q ∈ area img' p.1 p.2 R, img'.px q.1 q.2

/-- The values of an array in the table depend on the photos as sums around the pixels of the LEDs only. -/
theorem recorded_light {D : Type} [LinearOrder D] [Add D] [Mul D] (maxLoc : Image ℚ → ℕ × ℕ) (m : Metric D) (h : List ExtCmd) (t : LedTable)
    (arrays : List (List ℕ)) (groups : Option (List (List ℤ))) (hs : Stage.ofHistory maxLoc m h = .matched t arrays groups)
    (leds : List ℕ) (R n n' : ℕ) (img img' : ℕ → Image ℚ) (u u' : ℕ → ℕ → ℝ)
    (hu : ∀ i, 1 ≤ i → i ≤ n → ∀ x ∈ leds, ∃ a j old p, IsMember arrays x a j old ∧ (old, p) ∈ t ∧
      u i x = ((sciVal (∑ q ∈ area (img i) p.1 p.2 R, (img i).px q.1 q.2) : ℚ) : ℝ) ∧
      Within (1 / 19999) (u i x) ((∑ q ∈ area (img i) p.1 p.2 R, (img i).px q.1 q.2 : ℚ) : ℝ))
    (hu' : ∀ i, 1 ≤ i → i ≤ n' → ∀ x ∈ leds, ∃ a j old p, IsMember arrays x a j old ∧ (old, p) ∈ t ∧
      u' i x = ((sciVal (∑ q ∈ area (img' i) p.1 p.2 R, (img' i).px q.1 q.2) : ℚ) : ℝ) ∧
      Within (1 / 19999) (u' i x) ((∑ q ∈ area (img' i) p.1 p.2 R, (img' i).px q.1 q.2 : ℚ) : ℝ))
    (i : ℕ) (h1 : 1 ≤ i) (h2 : i ≤ n) (h3 : i ≤ n') (hl : SameLight t R (img i) (img' i)) : ∀ x ∈ leds, u i x = u' i x := by
  have hd := history_agrees maxLoc m h
  rw [hs] at hd
  obtain ⟨t', fs, _, _, _, _, _, g3, _⟩ := hd
  intro x hx
  obtain ⟨a, j, old, p, e1, e2, e3, _⟩ := hu i h1 h2 x hx
  obtain ⟨a', j', old', p', e1', e2', e3', _⟩ := hu' i h1 h3 x hx
  have hold : old = old' := by
    have r1 := flatten_offset arrays a j old e1.2
    have r2 := flatten_offset arrays a' j' old' e1'.2
    rw [← e1.1] at r1
    rw [← e1'.1, r1] at r2
    exact Option.some.inj r2
  subst hold
  obtain rfl := row_unique t g3 old p p' e2 e2'
  rw [e3, e3', hl old p e2]

/-- **C148, from the photos**: steps 1 and 2 done once, step 3 run for two series of photos. If the LEDs look the same in the reference
photos of both series, then in every photo where they look the same in both, whatever the analysis of an array (merged or not) found
in the first series is a possible result in the second one. The photos may differ anywhere else, the other photos altogether. -/
theorem C148_photos {D : Type} [LinearOrder D] [Add D] [Mul D] (maxLoc : Image ℚ → ℕ × ℕ) (m : Metric D) (h : List ExtCmd) (t : LedTable)
    (arrays : List (List ℕ)) (groups : Option (List (List ℤ))) (hs : Stage.ofHistory maxLoc m h = .matched t arrays groups) (o : Step3Options)
    (ho : FitOptions arrays groups o) (fit : List P3 → Plane) (edges : List (P3 × P3)) (he : arrays.length ≤ edges.length)
    (hp : EndsMeasured t arrays arrays.length)
    (hdis : ((List.range (wantedCount arrays groups)).map (wantedLeds arrays groups)).flatten.Nodup)
    (h4 : 4 ≤ ((List.range (wantedCount arrays groups)).map (wantedLeds arrays groups)).flatten.length)
    (rows : List CoordRow) (hrows : calculateCoordinates fit arrays.length edges (runHistory maxLoc m .empty h) = .ok rows)
    (c : Option (List (ℕ × List ℚ × ℚ × ℚ))) (hcr : ∀ c', c = some c' → List.Forall₂ SameRow rows c')
    (root : Str) (hroot : '\n' ∉ root) (R ch : ℕ)
    (w w' : HdfWorld) (n n' : ℕ) (hcount : w.count w.cwd = .ok (n : ℤ)) (hn : 0 < n) (hw : w.cache = none) (hc : w.coord w.cwd = c.map asCoord)
    (hcount' : w'.count w'.cwd = .ok (n' : ℤ)) (hn' : 0 < n') (hw' : w'.cache = none) (hc' : w'.coord w'.cwd = c.map asCoord)
    (infos infos' : List InfoRow) (hi : GoodInfos infos) (hlen : n ≤ infos.length) (hi' : GoodInfos infos') (hlen' : n' ≤ infos'.length)
    (img img' : ℕ → Image ℚ) (hph : ∀ i, Photographed t arrays R (img i)) (hph' : ∀ i, Photographed t arrays R (img' i))
    (files files' : ℕ → Option Str)
    (hf : ∀ i, 1 ≤ i → i ≤ n → files i =
      (step3File o (infoFile infos) root ch R 0 (img i) none (natStr i) (runHistory maxLoc m .empty h)).toOption)
    (hf' : ∀ i, 1 ≤ i → i ≤ n' → files' i =
      (step3File o (infoFile infos') root ch R 0 (img' i) none (natStr i) (runHistory maxLoc m .empty h)).toOption)
    (k : ℕ) (hk : k < wantedCount arrays groups) (hasc : (wantedLeds arrays groups k).Pairwise (· < ·))
    (a : ArrayAnalysis) (no : NonlinearOptions) (href : ∃ i, 1 ≤ i ∧ i ≤ n ∧ a.ref.selects i = true)
    (hsame : ∀ i, 1 ≤ i → a.ref.selects i = true → (i ≤ n ↔ i ≤ n') ∧ (i ≤ n → SameLight t R (img i) (img' i))) :
    ∃ f f', textFrame w ch files = .ok f ∧ textFrame w' ch files' = .ok f' ∧
      ∀ Result : Except PyErr (List (Option (List ℝ)) × List (List ℝ)) → Except PyErr (List (Fin a.layers → ℝ)) → Prop,
        Result = a.ResultOf ∨ Result = a.NonlinearResultOf no →
      ∀ cs cs', Result (a.inputOf (frameData f "sum_col_val" k)) (.ok cs) → Result (a.inputOf (frameData f' "sum_col_val" k)) (.ok cs') →
        ∃ mixed, Result (a.inputOf (frameData f' "sum_col_val" k)) (.ok mixed) ∧ mixed.length = n' ∧
          ∀ i, 1 ≤ i → i ≤ n → i ≤ n' → SameLight t R (img i) (img' i) → ∃ σ, mixed[i - 1]? = some σ ∧ cs[i - 1]? = some σ := by
  obtain ⟨hne, rows1, r1, _, _, g1⟩ := C131_measured_exact maxLoc m h t arrays groups hs o ho fit edges he hp hdis h4 w ch n hcount hn hw infos hi
    hlen root hroot R img hph files hf k hk hasc
  obtain ⟨_, rows2, r2, _, _, g2⟩ := C131_measured_exact maxLoc m h t arrays groups hs o ho fit edges he hp hdis h4 w' ch n' hcount' hn' hw' infos' hi'
    hlen' root hroot R img' hph' files' hf' k hk hasc
  obtain rfl : rows1 = rows := by rw [hrows] at r1; injection r1 with r1; exact r1.symm
  obtain rfl : rows2 = rows1 := by rw [hrows] at r2; injection r2 with r2; exact r2.symm
  obtain ⟨f, u, f1, f2, f3⟩ := g1 c hc hcr
  obtain ⟨f', u', f1', f2', f3'⟩ := g2 c hc' hcr
  have hlight := recorded_light maxLoc m h t arrays groups hs _ R n n' img img' u u' f3 f3'
  have href' : ∃ i, 1 ≤ i ∧ i ≤ n' ∧ a.ref.selects i = true := by
    obtain ⟨i, i1, i2, i3⟩ := href
    exact ⟨i, i1, (hsame i i1 i3).1.1 i2, i3⟩
  refine ⟨f, f', f1, f1', fun Result hR cs cs' hcs hcs' => ?_⟩
  rw [f2] at hcs
  rw [f2'] at hcs' ⊢
  -- outside of the series the values do not matter
  set v' : ℕ → ℕ → ℝ := fun i x => if i ≤ n' then u' i x else u i x with hv'
  have htab : tableOf (firstImgs n') (wantedLeds arrays groups k) u' = tableOf (firstImgs n') (wantedLeds arrays groups k) v' := by
    unfold tableOf
    apply List.flatMap_congr
    intro i hi
    refine List.map_congr_left fun x _ => ?_
    have := ((mem_firstImgs _ _).1 hi).2
    simp only [hv', if_pos this]
  rw [htab] at hcs' ⊢
  have hrefs : SameReferences a.ref (wantedLeds arrays groups k) n n' u v' := by
    intro i i1 i3
    obtain ⟨j1, j2⟩ := hsame i i1 i3
    refine ⟨j1, fun x hx => ?_⟩
    simp only [hv']
    split
    · next hi2 => exact hlight i i1 (j1.2 hi2) hi2 (j2 (j1.2 hi2)) x hx
    · rfl
  have hloc := table_local a no n n' hn hn' (wantedLeds arrays groups k) hasc hne u v' href href' hrefs cs cs'
  have hlenc : cs.length = n := by
    have key : ∀ P : List ℝ → Except PyErr (Fin a.layers → ℝ) → Prop, ∀ rels : List (List ℝ), rels.length = n →
        SeriesResult P rels (.ok cs) → cs.length = n := by
      intro P rels hr hsr
      rw [seriesResult_ok_iff] at hsr
      rw [← hsr.length_eq, hr]
    cases hpos : ledPositions a.coordinates a.ids with
    | error e =>
      have : ∀ d, a.inputOf d = .error e := by intro d; unfold ArrayAnalysis.inputOf; rw [hpos]; rfl
      rw [this] at hcs
      rcases hR with rfl | rfl <;> cases hcs
    | ok pos =>
      rw [table_input a n hn _ u hasc hne href pos hpos] at hcs
      rcases hR with rfl | rfl
      · exact key _ _ (by simp [firstImgs]) hcs
      · exact key _ _ (by simp [firstImgs]) hcs
  refine ⟨takeOver (wantedLeds arrays groups k) n n' u v' cs cs', ?_, by simp [takeOver, firstImgs], ?_⟩
  · rcases hR with rfl | rfl
    · exact hloc.1 hcs hcs'
    · exact hloc.2 hcs hcs'
  · intro i i1 i2 i3 hl
    have hcond : i ≤ n ∧ ∀ x ∈ wantedLeds arrays groups k, u i x = v' i x := by
      refine ⟨i2, fun x hx => ?_⟩
      simp only [hv', if_pos i3]
      exact hlight i i1 i2 i3 hl x hx
    refine ⟨cs[i - 1]'(by omega), ?_, List.getElem?_eq_getElem _⟩
    unfold takeOver
    rw [List.getElem?_map]
    have : (firstImgs n')[i - 1]? = some i := by
      unfold firstImgs
      rw [List.getElem?_map, List.getElem?_range (by omega)]
      simp; omega
    rw [this, Option.map_some, if_pos hcond, List.getD_eq_getElem?_getD, List.getElem?_eq_getElem (by omega)]
    rfl

/-! ### Examples -/

/-- Two images, the first is the reference; in the second series an image was added and the second image is darker. -/
example : relOf (.first 1) 2 [0, 1] (fun i l => if i = 1 then 4 else 2 + l) 2 = [1 / 2, 3 / 4] ∧
    relOf (.first 1) 3 [0, 1] (fun i l => if i = 1 then 4 else if i = 2 then 1 else 2 + l) 3 = [1 / 2, 3 / 4] := by
  constructor <;> norm_num [relOf, firstImgs, meanOver, RefChoice.selects, List.range_succ]

example : SameReferences (.first 1) [0, 1] 2 3 (fun i l => if i = 1 then 4 else 2 + l)
    (fun i l => if i = 1 then 4 else if i = 2 then 1 else 2 + l) := by
  intro i h1 h2
  have : i = 1 := by simp [RefChoice.selects] at h2; omega
  subst this
  simp

/-- With two reference images asked for, the result for the first image does depend on whether the second one is there already. -/
theorem C148_reference_needed : relOf (.first 2) 1 [0] (fun i _ => if i = 1 then 4 else 2) 1 ≠
    relOf (.first 2) 2 [0] (fun i _ => if i = 1 then 4 else 2) 1 := by
  norm_num [relOf, firstImgs, meanOver, RefChoice.selects, List.range_succ]

end Ledsa
