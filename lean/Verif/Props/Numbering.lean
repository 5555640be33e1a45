import Verif.Props.RayRuns
import Verif.Props.Locality
import Verif.Model.NonlinearRun
import Verif.Props.WholeRun

/-!
# The numbers of the LEDs of an array do not matter (C160)
-/

namespace Ledsa

theorem sum_pairs (q : List (List ℝ × ℝ)) (F : List ℝ → ℝ → ℝ) :
    ∑ i : Fin (q.map (·.1)).length, F (q.map (·.1))[i] ((q.map (·.2)).getD i 0) = (q.map fun p => F p.1 p.2).sum := by
  induction q with
  | nil => exact Fin.sum_univ_zero _
  | cons p t ih =>
    rw [List.map_cons (f := fun p : List ℝ × ℝ => F p.1 p.2), List.sum_cons, ← ih]
    exact Fin.sum_univ_succ (n := (t.map (·.1)).length) fun i => F ((p :: t).map (·.1))[i] (((p :: t).map (·.2)).getD i 0)

theorem sum_perm {α : Type} {q q' : List α} (h : q.Perm q') (F : α → ℝ) : (q.map F).sum = (q'.map F).sum :=
  (h.map F).sum_eq

/-- The squared error of the linear solver as a sum over the LEDs. -/
theorem residual_pairs (q : List (List ℝ × ℝ)) (n : ℕ) (lam : ℝ) (x : Fin n → ℝ) :
    residual (augMatrix (distEntry (q.map (·.1))) lam)
      (augRhs n fun (i : Fin (q.map (·.1)).length) => (q.map (·.2)).getD i 0) x =
    (q.map fun p => (∑ l : Fin n, p.1.getD l 0 * x l - opticalDepth p.2) ^ 2).sum +
      ∑ i : Fin (regRows n), (∑ l : Fin n, Real.sqrt lam * regEntry n i l * x l) ^ 2 := by
  unfold residual
  rw [Fintype.sum_sum_type]
  congr 1
  · exact sum_pairs q fun r y => (∑ l : Fin n, r.getD l 0 * x l - opticalDepth y) ^ 2
  · refine Finset.sum_congr rfl fun i _ => ?_
    simp only [augMatrix, augRhs, sub_zero]

theorem start_pairs (q : List (List ℝ × ℝ)) (n : ℕ) (lam : ℝ) (l : Fin n) :
    ∑ i, augMatrix (distEntry (q.map (·.1))) lam i l *
      augRhs n (fun (i : Fin (q.map (·.1)).length) => (q.map (·.2)).getD i 0) i =
    (q.map fun p => p.1.getD l 0 * opticalDepth p.2).sum := by
  rw [Fintype.sum_sum_type]
  have : ∑ i : Fin (regRows n), augMatrix (distEntry (q.map (·.1))) lam (.inr i) l *
      augRhs n (fun (i : Fin (q.map (·.1)).length) => (q.map (·.2)).getD i 0) (.inr i) = 0 :=
    Finset.sum_eq_zero fun i _ => by simp only [augRhs, mul_zero]
  rw [this, add_zero]
  exact sum_pairs q fun r y => r.getD l 0 * opticalDepth y

theorem linearSolution_perm {q q' : List (List ℝ × ℝ)} (h : q.Perm q') (n : ℕ) (lam : ℝ) (σ : Fin n → ℝ)
    (hs : LinearSolution (distEntry (q.map (·.1))) lam (fun (i : Fin (q.map (·.1)).length) => (q.map (·.2)).getD i 0) σ) :
    LinearSolution (distEntry (q'.map (·.1))) lam (fun (i : Fin (q'.map (·.1)).length) => (q'.map (·.2)).getD i 0) σ := by
  obtain ⟨⟨h1, h2⟩, h3⟩ := hs
  refine ⟨⟨h1, fun y hy => ?_⟩, fun hy => h3 fun l => ?_⟩
  · have := h2 y hy
    rw [residual_pairs, residual_pairs] at this ⊢
    rwa [sum_perm h, sum_perm h] at this
  · have := hy l
    rw [start_pairs] at this ⊢
    rwa [sum_perm h]

theorem cost_pairs (q : List (List ℝ × ℝ)) (n : ℕ) (c p : ℝ) (σ : Fin n → ℝ) :
    costFunction (distEntry (q.map (·.1))) c p (fun (i : Fin (q.map (·.1)).length) => (q.map (·.2)).getD i 0) σ =
    Real.sqrt (q.map fun p => (rayIntensity σ (fun l => p.1.getD l 0) - p.2) ^ 2).sum / q.length + curvature q.length c σ + preference p σ := by
  unfold costFunction rmse
  have e : (q.map (·.1)).length = q.length := List.length_map _
  congr 1
  congr 1
  · congr 1
    · congr 1
      exact sum_pairs q fun r y => (rayIntensity σ (fun l => r.getD l 0) - y) ^ 2
    · rw [e]
  · rw [e]

theorem nearBest_perm {q q' : List (List ℝ × ℝ)} (h : q.Perm q') (n : ℕ) (o : NonlinearOptions) (σ : Fin n → ℝ)
    (hs : NearBest (distEntry (q.map (·.1))) o (fun (i : Fin (q.map (·.1)).length) => (q.map (·.2)).getD i 0) σ) :
    NearBest (distEntry (q'.map (·.1))) o (fun (i : Fin (q'.map (·.1)).length) => (q'.map (·.2)).getD i 0) σ := by
  refine ⟨hs.1, fun τ hτ => ?_⟩
  have := hs.2 τ hτ
  rw [cost_pairs, cost_pairs] at this ⊢
  rwa [sum_perm h, sum_perm h, h.length_eq] at this

theorem mapM_id_none {α : Type} : ∀ l : List (Option α), none ∈ l → l.mapM id = none
  | [], h => by simp at h
  | none :: _, _ => by rw [List.mapM_cons]; rfl
  | some x :: t, h => by
    rw [List.mapM_cons, mapM_id_none t (by simpa using h)]; rfl

theorem image_perm {ι : Type} {c c' : List ι} (h : c.Perm c') (row : ι → Option (List ℝ)) (rel : ι → ℝ) (n : ℕ) (lam : ℝ) (o : NonlinearOptions)
    (r : Except PyErr (Fin n → ℝ)) :
    (LinearImage n (c.map row) lam (c.map rel) r → LinearImage n (c'.map row) lam (c'.map rel) r) ∧
    (NonlinearImage n (c.map row) o (c.map rel) r → NonlinearImage n (c'.map row) o (c'.map rel) r) := by
  unfold LinearImage NonlinearImage
  by_cases hn : none ∈ c.map row
  · have hn' : none ∈ c'.map row := (h.map row).mem_iff.1 hn
    rw [mapM_id_none _ hn, mapM_id_none _ hn']
    exact ⟨id, id⟩
  · have hn' : none ∉ c'.map row := fun x => hn ((h.map row).mem_iff.2 x)
    have e : ∀ c : List ι, none ∉ c.map row → c.map row = ((c.map fun s => ((row s).getD [], rel s)).map (·.1)).map some := by
      intro c hc
      rw [List.map_map, List.map_map]
      refine List.map_congr_left fun s hs => ?_
      have : row s ≠ none := fun x => hc (List.mem_map.2 ⟨s, hs, x⟩)
      obtain ⟨y, hy⟩ := Option.ne_none_iff_exists'.1 this
      simp only [Function.comp, hy, Option.getD_some]
    have e2 : ∀ c : List ι, c.map rel = (c.map fun s => ((row s).getD [], rel s)).map (·.2) := by
      intro c; rw [List.map_map]; rfl
    have hq := h.map fun s => ((row s).getD [], rel s)
    rw [e c hn, e c' hn', e2 c, e2 c', mapM_id_some, mapM_id_some]
    generalize c.map (fun s => ((row s).getD [], rel s)) = q at hq
    generalize c'.map (fun s => ((row s).getD [], rel s)) = q' at hq
    have l : (q.map (·.2)).length = (q.map (·.1)).length := by simp
    have l' : (q'.map (·.2)).length = (q'.map (·.1)).length := by simp
    simp only [l, l', if_true]
    exact ⟨fun ⟨σ, h1, h2⟩ => ⟨σ, h1, linearSolution_perm hq n lam σ h2⟩, fun ⟨σ, h1, h2⟩ => ⟨σ, h1, nearBest_perm hq n o σ h2⟩⟩

/-- The result files and the file of LED positions describe the LEDs `c` of an array, numbered by `num` in ascending order: LED `s` is at
`place s`, and its value in image `i` is `light i s`. The file of the array lists the numbers in descending order. -/
structure Numbered {ι : Type} (a : ArrayAnalysis) (files : ℕ → List (ℕ × ℕ × ℝ)) (N : ℕ) (c : List ι) (num : ι → ℕ) (place : ι → P3)
    (light : ℕ → ι → ℝ) : Prop where
  pos : 0 < N
  ne : c ≠ []
  ascending : (c.map num).Pairwise (· < ·)
  ids : a.ids = (c.map num).reverse
  place : ∀ s ∈ c, a.coordinates[num s]? = some (place s)
  nodup : ∀ i, 1 ≤ i → i ≤ N → ((files i).map (·.1)).Nodup
  rows : ∀ i, 1 ≤ i → i ≤ N → ∀ l x, (l, a.arr, x) ∈ files i ↔ ∃ s ∈ c, l = num s ∧ x = light i s
  ref : ∃ i, 1 ≤ i ∧ i ≤ N ∧ a.ref.selects i = true

theorem mapM_lookup {α β : Type} (f : α → Option β) (g : α → β) : ∀ l : List α, (∀ x ∈ l, f x = some (g x)) → l.mapM f = some (l.map g)
  | [], _ => rfl
  | x :: t, h => by rw [List.mapM_cons, h x (by simp), mapM_lookup f g t fun y hy => h y (by simp [hy])]; rfl

open Classical in
theorem Numbered.input {ι : Type} {a : ArrayAnalysis} {files : ℕ → List (ℕ × ℕ × ℝ)} {N : ℕ} {c : List ι} {num : ι → ℕ} {place : ι → P3}
    {light : ℕ → ι → ℝ} (h : Numbered a files N c num place light) :
    a.solverInput files N = .ok (c.map fun s => (match distPerLayer a.cam (place s) (layers a.lo a.hi a.layers) with
        | .dists d => some d
        | _ => none), (firstImgs N).map fun i => c.map fun s => light i s / meanOver ((firstImgs N).filter a.ref.selects) (fun i _ => light i s) 0) := by
  have hinj : ∀ s ∈ c, ∀ t ∈ c, num s = num t → s = t := by
    intro s hs t ht hst
    have hnd : (c.map num).Nodup := h.ascending.imp fun h => ne_of_lt h
    exact List.inj_on_of_nodup_map hnd hs ht hst
  set v : ℕ → ℕ → ℝ := fun i l => if hl : ∃ s ∈ c, num s = l then light i hl.choose else 0 with hv
  have hvs : ∀ i, ∀ s ∈ c, v i (num s) = light i s := by
    intro i s hs
    have hex : ∃ t ∈ c, num t = num s := ⟨s, hs, rfl⟩
    simp only [hv, dif_pos hex]
    rw [hinj _ hex.choose_spec.1 s hs hex.choose_spec.2]
  have hc : CompleteSeries a.ref a.arr files N (c.map num) v := by
    refine ⟨h.pos, h.ascending, by simpa using h.ne, h.nodup, fun i h1 h2 l x => ?_, h.ref⟩
    rw [h.rows i h1 h2]
    constructor
    · rintro ⟨s, hs, rfl, rfl⟩
      exact ⟨List.mem_map.2 ⟨s, hs, rfl⟩, (hvs i s hs).symm⟩
    · rintro ⟨hl, rfl⟩
      obtain ⟨s, hs, rfl⟩ := List.mem_map.1 hl
      exact ⟨s, hs, rfl, hvs i s hs⟩
  have hp : ledPositions a.coordinates a.ids = .ok ((c.map place).reverse) := by
    unfold ledPositions
    rw [h.ids, ← List.map_reverse, List.mapM_map, mapM_lookup _ place]
    · rw [List.map_reverse]
    · intro s hs
      exact h.place s (by simpa using hs)
  rw [hc.input _ hp]
  congr 2
  · unfold distanceArray distanceRows
    rw [List.reverse_reverse, List.map_map]; rfl
  · refine List.map_congr_left fun i _ => ?_
    unfold relOf
    rw [List.map_map]
    refine List.map_congr_left fun s hs => ?_
    simp only [Function.comp]
    rw [hvs i s hs]
    congr 1
    unfold meanOver
    simp only [hvs _ s hs]

theorem series_perm {C : Type} {P P' : List ℝ → Except PyErr C → Prop} (l : List ℕ) (f f' : ℕ → List ℝ) (h : ∀ i r, P (f i) r → P' (f' i) r)
    (rs : List (Except PyErr C)) (hs : List.Forall₂ P (l.map f) rs) : List.Forall₂ P' (l.map f') rs := by
  rw [List.forall₂_map_left_iff] at hs ⊢
  exact hs.imp fun i r => h i r

theorem results_perm {ι : Type} {c c' : List ι} (hc : c.Perm c') (a : ArrayAnalysis) (row : ι → Option (List ℝ)) (rel : ℕ → ι → ℝ)
    (o : NonlinearOptions) (imgs : List ℕ) (r : Except PyErr (List (Fin a.layers → ℝ))) :
    (a.ResultOf (.ok (c.map row, imgs.map fun i => c.map (rel i))) r ↔ a.ResultOf (.ok (c'.map row, imgs.map fun i => c'.map (rel i))) r) ∧
    (a.NonlinearResultOf o (.ok (c.map row, imgs.map fun i => c.map (rel i))) r ↔
      a.NonlinearResultOf o (.ok (c'.map row, imgs.map fun i => c'.map (rel i))) r) := by
  unfold ArrayAnalysis.ResultOf ArrayAnalysis.NonlinearResultOf
  simp only
  refine ⟨⟨?_, ?_⟩, ⟨?_, ?_⟩⟩
  · rintro ⟨rs, h1, rfl⟩
    exact ⟨rs, series_perm _ _ _ (fun i r hr => (image_perm hc _ _ _ _ o r).1 hr) rs h1, rfl⟩
  · rintro ⟨rs, h1, rfl⟩
    exact ⟨rs, series_perm _ _ _ (fun i r hr => (image_perm hc.symm _ _ _ _ o r).1 hr) rs h1, rfl⟩
  · rintro ⟨rs, h1, rfl⟩
    exact ⟨rs, series_perm _ _ _ (fun i r hr => (image_perm hc _ _ _ a.lam o r).2 hr) rs h1, rfl⟩
  · rintro ⟨rs, h1, rfl⟩
    exact ⟨rs, series_perm _ _ _ (fun i r hr => (image_perm hc.symm _ _ _ a.lam o r).2 hr) rs h1, rfl⟩

/-- **C160.** The same LEDs, numbered differently: the possible results of the analysis are the same, for both solvers. The array may also
have another number, and the number of cores may differ. -/
theorem C160_numbering {ι : Type} (a : ArrayAnalysis) (o : NonlinearOptions) (coordinates : List P3) (ids : List ℕ) (arr : ℕ) (parallel : Bool)
    (files files' : ℕ → List (ℕ × ℕ × ℝ)) (N : ℕ) (c c' : List ι) (hc : c.Perm c') (num num' : ι → ℕ) (place : ι → P3) (light : ℕ → ι → ℝ)
    (h : Numbered a files N c num place light)
    (h' : Numbered { a with coordinates := coordinates, ids := ids, arr := arr, parallel := parallel } files' N c' num' place light)
    (r : Except PyErr (List (Fin a.layers → ℝ))) :
    (a.Result files N r ↔ ({ a with coordinates := coordinates, ids := ids, arr := arr, parallel := parallel } : ArrayAnalysis).Result files' N r) ∧
    (a.NonlinearResultOf o (a.solverInput files N) r ↔
      ({ a with coordinates := coordinates, ids := ids, arr := arr, parallel := parallel } : ArrayAnalysis).NonlinearResultOf o
        (({ a with coordinates := coordinates, ids := ids, arr := arr, parallel := parallel } : ArrayAnalysis).solverInput files' N) r) := by
  unfold ArrayAnalysis.Result
  rw [h.input, h'.input]
  exact results_perm hc a _ _ o (firstImgs N) r

/-! ### From the photos -/

variable {D : Type} [LinearOrder D] [Add D] [Mul D]

/-- The solver input for a table of the LEDs `c`, numbered by `num`. -/
theorem numbered_table {ι : Type} (a : ArrayAnalysis) (N : ℕ) (hN : 0 < N) (c : List ι) (num : ι → ℕ) (place : ι → P3) (light : ℕ → ι → ℝ)
    (u : ℕ → ℕ → ℝ) (hne : c ≠ []) (hasc : (c.map num).Pairwise (· < ·)) (hids : a.ids = (c.map num).reverse)
    (hpl : ∀ s ∈ c, a.coordinates[num s]? = some (place s)) (hu : ∀ i, 1 ≤ i → i ≤ N → ∀ s ∈ c, u i (num s) = light i s)
    (href : ∃ i, 1 ≤ i ∧ i ≤ N ∧ a.ref.selects i = true) :
    a.inputOf (.ok (tableOf (firstImgs N) (c.map num) u)) =
      .ok (c.map fun s => (match distPerLayer a.cam (place s) (layers a.lo a.hi a.layers) with
        | .dists d => some d
        | _ => none), (firstImgs N).map fun i => c.map fun s => light i s / meanOver ((firstImgs N).filter a.ref.selects) (fun i _ => light i s) 0) := by
  have hp : ledPositions a.coordinates a.ids = .ok ((c.map place).reverse) := by
    unfold ledPositions
    rw [hids, ← List.map_reverse, List.mapM_map, mapM_lookup _ place]
    · rw [List.map_reverse]
    · intro s hs
      exact hpl s (by simpa using hs)
  rw [table_input a N hN (c.map num) u hasc (by simpa using hne) href _ hp]
  congr 2
  · unfold distanceArray distanceRows
    rw [List.reverse_reverse, List.map_map]; rfl
  · refine List.map_congr_left fun i hi => ?_
    obtain ⟨h1, h2⟩ := (mem_firstImgs N i).1 hi
    unfold relOf
    rw [List.map_map]
    refine List.map_congr_left fun s hs => ?_
    simp only [Function.comp]
    rw [hu i h1 h2 s hs]
    congr 1
    unfold meanOver
    congr 2
    refine List.map_congr_left fun j hj => ?_
    obtain ⟨h1, h2⟩ := (mem_firstImgs N j).1 (List.mem_filter.1 hj).1
    exact hu j h1 h2 s hs

theorem blocks_nodup (arrays : List (List ℕ)) (n : ℕ) : ((List.range n).map (blockOf arrays)).flatten.Nodup := by
  rw [List.nodup_flatten]
  refine ⟨?_, ?_⟩
  · intro l hl
    obtain ⟨k, _, rfl⟩ := List.mem_map.1 hl
    exact blockOf_nodup arrays k
  · rw [List.pairwise_map]
    refine (List.nodup_range (n := n)).imp ?_
    intro a b hab x hx hx'
    exact hab (blockOf_disjoint arrays a b x hx hx')

/-- A run of the program up to the analysis: the LEDs `t` were found and matched to the arrays `arrays`, whose ends were measured at
`edges`; step 3 measured the LEDs in the photos `img` of `n` times. -/
structure ReadyRun (maxLoc : Image ℚ → ℕ × ℕ) (m : Metric D) (h : List ExtCmd) (t : LedTable) (arrays : List (List ℕ)) (edges : List (P3 × P3))
    (w : HdfWorld) (ch n : ℕ) (infos : List InfoRow) (root : Str) (R : ℕ) (img : ℕ → Image ℚ) (files : ℕ → Option Str) : Prop where
  matched : Stage.ofHistory maxLoc m h = .matched t arrays none
  four : 4 ≤ arrays.flatten.length
  measured : arrays.length ≤ edges.length
  ends : EndsMeasured t arrays arrays.length
  count : w.count w.cwd = .ok (n : ℤ)
  images : 0 < n
  fresh : w.cache = none
  goodInfos : GoodInfos infos
  enough : n ≤ infos.length
  oneLine : '\n' ∉ root
  photos : ∀ i, Photographed t arrays R (img i)
  written : ∀ i, 1 ≤ i → i ≤ n → files i =
    (step3File ⟨arrays.length, none⟩ (infoFile infos) root ch R 0 (img i) none (natStr i) (runHistory maxLoc m .empty h)).toOption

/-- The table of a stage has the ids 0, 1, 2, …; matched arrays have no LED twice. -/
def Stage.Proper : Stage → Prop
  | .detected t => (t.map (·.1)).Nodup
  | .matched _ arrays _ => arrays.flatten.Nodup
  | _ => True

theorem match_proper (m : Metric D) (o : Step2Options) (s : Stage) (h : s.Proper) : (Stage.match m o s).Proper := by
  cases s with
  | fresh => trivial
  | spoilt => trivial
  | matched t arrays g => exact h
  | detected t =>
    show Stage.Proper (match arraysOf m o t with
      | .error _ => .detected t
      | .ok arrays => if arrays.flatten = [] then .spoilt else .matched t arrays o.groups)
    cases e : arraysOf m o t with
    | error x => exact h
    | ok arrays =>
      simp only
      split
      · trivial
      · unfold arraysOf at e
        cases e' : matchLeds m.dist m.neighbours m.weight (edgeIndices o.edges) o.ignore t with
        | error x => rw [e'] at e; cases e
        | ok r =>
          rw [e'] at e
          simp only [Except.map, Except.ok.injEq] at e
          subst e
          exact (C14_at_most_one_array m.dist m.neighbours m.weight _ o.ignore t h r.1 r.2 e').1

theorem detect_proper (maxLoc : Image ℚ → ℕ × ℕ) (j : Step1Job) : (Stage.detect (j.table maxLoc)).Proper := by
  unfold Stage.detect
  split
  · trivial
  · show ((j.table maxLoc).map (·.1)).Nodup
    rw [jobTable_ids]
    exact List.nodup_range

theorem history_proper (maxLoc : Image ℚ → ℕ × ℕ) (m : Metric D) (h : List ExtCmd) : (Stage.ofHistory maxLoc m h).Proper := by
  unfold Stage.ofHistory
  have : ∀ s : Stage, s.Proper → (h.foldl (Stage.after maxLoc m) s).Proper := by
    induction h with
    | nil => exact fun s hs => hs
    | cons c cs ih =>
      intro s hs
      refine ih _ ?_
      cases c with
      | step1 j => exact detect_proper maxLoc j
      | steps12 j o => exact match_proper m o _ (detect_proper maxLoc j)
      | step2 o =>
        cases s with
        | detected t =>
          show Stage.Proper (if t.length ≤ 1 then .detected t else Stage.match m o (.detected t))
          split
          · exact hs
          · exact match_proper m o _ hs
        | fresh => trivial
        | spoilt => trivial
        | matched t arrays g => exact hs
  exact this _ trivial

/-- The number an LED of array `k` gets. -/
def newNumber (arrays : List (List ℕ)) (k : ℕ) (c : List ℕ) (s : ℕ) : ℕ := (arrays.take k).flatten.length + c.idxOf s

theorem newNumber_block (arrays : List (List ℕ)) (hnd : arrays.flatten.Nodup) (k : ℕ) (c : List ℕ) (hk : arrays[k]? = some c) :
    blockOf arrays k = c.map (newNumber arrays k c) := by
  have hc : c.Nodup := (List.nodup_flatten.1 hnd).1 c (List.mem_of_getElem? hk)
  unfold blockOf
  rw [hk, Option.getD_some]
  apply List.ext_getElem?
  intro i
  by_cases hi : i < c.length
  · rw [List.getElem?_range' hi, List.getElem?_map, List.getElem?_eq_getElem hi, Option.map_some]
    unfold newNumber
    rw [hc.idxOf_getElem, Nat.one_mul]
  · rw [List.getElem?_eq_none (by rw [List.length_range']; omega), List.getElem?_eq_none (by rw [List.length_map]; omega)]

theorem newNumber_member (arrays : List (List ℕ)) (k : ℕ) (c : List ℕ) (hk : arrays[k]? = some c) (s : ℕ) (hs : s ∈ c) :
    IsMember arrays (newNumber arrays k c s) k (c.idxOf s) s := by
  refine ⟨rfl, ?_⟩
  unfold member
  rw [hk, Option.bind_some]
  exact List.getElem?_idxOf hs

theorem member_old (arrays : List (List ℕ)) (x k i old k' i' old' : ℕ) (h : IsMember arrays x k i old) (h' : IsMember arrays x k' i' old') : old = old' := by
  have h1 := flatten_offset arrays k i old h.2
  have h2 := flatten_offset arrays k' i' old' h'.2
  rw [← h.1] at h1
  rw [← h'.1, h1] at h2
  exact Option.some.inj h2

/-- What the analysis of array `k` reads after a run. -/
theorem ReadyRun.reads {maxLoc : Image ℚ → ℕ × ℕ} {m : Metric D} {h : List ExtCmd} {t : LedTable} {arrays : List (List ℕ)} {edges : List (P3 × P3)}
    {w : HdfWorld} {ch n : ℕ} {infos : List InfoRow} {root : Str} {R : ℕ} {img : ℕ → Image ℚ} {files : ℕ → Option Str}
    (hr : ReadyRun maxLoc m h t arrays edges w ch n infos root R img files) (fit : List P3 → Plane) (k : ℕ) (c : List ℕ) (hk : arrays[k]? = some c)
    (T B : P3) (hTB : edges[k]? = some (T, B)) :
    c ≠ [] ∧ (c.map (newNumber arrays k c)).Pairwise (· < ·) ∧
    ∃ rows, calculateCoordinates fit arrays.length edges (runHistory maxLoc m .empty h) = .ok rows ∧
      loadIndexFile ((runHistory maxLoc m .empty h).index (indexFileName k [])) =
        .ok ((c.map (newNumber arrays k c)).reverse.map (Nat.cast : ℕ → ℤ)) ∧
      (∃ f l pf pl, c.head? = some f ∧ c.getLast? = some l ∧ (f, pf) ∈ t ∧ (l, pl) ∈ t ∧ realPix pf ≠ realPix pl ∧
        ∀ s ∈ c, ∃ p q, (s, p) ∈ t ∧ IsFraction (realPix pf) (realPix pl) (realPix p) q ∧
          (rows.map (·.pos))[newNumber arrays k c s]? = some (fixed6P (lerp3 T B q))) ∧
      ∀ (cf : Option (List (ℕ × List ℚ × ℚ × ℚ))), w.coord w.cwd = cf.map asCoord → (∀ c', cf = some c' → List.Forall₂ SameRow rows c') →
      ∃ f u, textFrame w ch files = .ok f ∧ frameData f "sum_col_val" k = .ok (tableOf (firstImgs n) (c.map (newNumber arrays k c)) u) ∧
      ∀ i, 1 ≤ i → i ≤ n → ∀ s ∈ c, ∃ p, (s, p) ∈ t ∧
        u i (newNumber arrays k c s) = ((sciVal (∑ q ∈ area (img i) p.1 p.2 R, (img i).px q.1 q.2) : ℚ) : ℝ) := by
  have hd := history_agrees maxLoc m h
  rw [hr.matched] at hd
  have hkl : k < arrays.length := (List.getElem?_eq_some_iff.1 hk).1
  have hnodup : arrays.flatten.Nodup := by
    have := history_proper maxLoc m h
    rwa [hr.matched] at this
  have hW : wantedLeds arrays none k = c.map (newNumber arrays k c) := newNumber_block arrays hnodup k c hk
  have hasc : (wantedLeds arrays none k).Pairwise (· < ·) := by
    show (blockOf arrays k).Pairwise (· < ·)
    unfold blockOf
    exact List.pairwise_lt_range'
  obtain ⟨hnone, rows, g1, g2, _, g4⟩ := C131_measured_exact maxLoc m h t arrays none hr.matched ⟨arrays.length, none⟩ ⟨rfl, rfl⟩ fit edges
    hr.measured hr.ends (blocks_nodup arrays _) (by
      have e : ((List.range arrays.length).map (blockOf arrays)).flatten.length = arrays.flatten.length := by
        rw [List.length_flatten, List.length_flatten, List.map_map]
        congr 1
        apply List.ext_getElem?
        intro i
        rw [List.getElem?_map, List.getElem?_map]
        by_cases hi : i < arrays.length
        · rw [List.getElem?_range hi, List.getElem?_eq_getElem hi]
          simp [blockOf, List.getElem?_eq_getElem hi]
        · rw [List.getElem?_eq_none (by simpa using hi), List.getElem?_eq_none (by simpa using hi)]
          rfl
      show 4 ≤ ((List.range arrays.length).map (blockOf arrays)).flatten.length
      rw [e]; exact hr.four)
    w ch n hr.count hr.images hr.fresh infos hr.goodInfos hr.enough root hr.oneLine R img hr.photos files hr.written k hkl hasc
  obtain ⟨rows', c1, _, c3⟩ := coordinates_rows t arrays none _ hd fit edges arrays.length le_rfl hr.measured hr.four hr.ends
  have : rows' = rows := by rw [g1] at c1; injection c1 with c1; exact c1.symm
  subst this
  rw [hW] at hnone hasc g2 g4
  refine ⟨fun hc => hnone (by rw [hc]; rfl), hasc, rows', g1, g2, ?_, ?_⟩
  · obtain ⟨c', f, l, pf, pl, e1, e2, e3, e4, e5, e6⟩ := hr.ends k hkl
    rw [hk, Option.some.injEq] at e1
    subst e1
    have hne : realPix pf ≠ realPix pl := by
      intro hc
      unfold realPix at hc
      simp only [Prod.mk.injEq, Int.cast_inj] at hc
      apply e6
      rw [hc.1, hc.2]
      ring
    refine ⟨f, l, pf, pl, e2, e3, e4, e5, hne, ?_⟩
    intro s hs
    obtain ⟨row, r1, _, r3, _, r4⟩ := c3 _ _ _ _ (newNumber_member arrays k c hk s hs)
    obtain ⟨q, q1, q2, _⟩ := r4 hkl c T B f l pf pl hk hTB e2 e3 e4 e5
    refine ⟨row.pix, q, r3, q1, ?_⟩
    rw [List.getElem?_map, r1, Option.map_some, q2]
  · intro cf hcf hcr
    obtain ⟨f, u, f1, f2, f3⟩ := g4 cf hcf hcr
    refine ⟨f, u, f1, f2, ?_⟩
    intro i h1 h2 s hs
    obtain ⟨a, j, old, p, m1, m2, m3, _⟩ := f3 i h1 h2 _ (List.mem_map_of_mem hs)
    rw [member_old arrays _ _ _ _ _ _ _ (newNumber_member arrays k c hk s hs) m1]
    have e := member_old arrays _ _ _ _ _ _ _ (newNumber_member arrays k c hk s hs) m1
    subst e
    exact ⟨p, m2, m3⟩

theorem lerp3_swap (T B : P3) (q : ℝ) : lerp3 B T q = lerp3 T B (1 - q) := by
  unfold lerp3
  ext
  · simp only; ring
  · simp only; ring
  · simp only; ring

theorem fraction_swap (p q x : P2) (s : ℝ) (h : IsFraction q p x s) : IsFraction p q x (1 - s) := by
  unfold IsFraction lerp2 at *
  simp only at *
  linear_combination -h

/-- Two arrays of the same LEDs with the same ends, or with exchanged ends; the measured positions accordingly. -/
def SameArray (c c' : List ℕ) (e e' : Option (P3 × P3)) : Prop :=
  c.Perm c' ∧ ((c.head? = c'.head? ∧ c.getLast? = c'.getLast? ∧ e' = e) ∨
    (c.head? = c'.getLast? ∧ c.getLast? = c'.head? ∧ e' = e.map Prod.swap))

/-- **C160, all steps.** Two runs on the same photos. The arrays may be given in another order, other arrays may be added or left out, the two
ends of an array may be exchanged: the analysis of the array with the same LEDs has the same possible results, for both solvers. -/
theorem C160_ends (maxLoc maxLoc' : Image ℚ → ℕ × ℕ) (m m' : Metric D) (h h' : List ExtCmd) (t : LedTable) (arrays arrays' : List (List ℕ))
    (edges edges' : List (P3 × P3)) (w w' : HdfWorld) (ch ch' n : ℕ) (infos infos' : List InfoRow) (root root' : Str) (R : ℕ) (img : ℕ → Image ℚ)
    (files files' : ℕ → Option Str) (hr : ReadyRun maxLoc m h t arrays edges w ch n infos root R img files)
    (hr' : ReadyRun maxLoc' m' h' t arrays' edges' w' ch' n infos' root' R img files') (fit fit' : List P3 → Plane)
    (k k' : ℕ) (c c' : List ℕ) (hk : arrays[k]? = some c) (hk' : arrays'[k']? = some c') (hc : SameArray c c' edges[k]? edges'[k']?) :
    ∃ rows rows' ids ids',
      calculateCoordinates fit arrays.length edges (runHistory maxLoc m .empty h) = .ok rows ∧
      calculateCoordinates fit' arrays'.length edges' (runHistory maxLoc' m' .empty h') = .ok rows' ∧
      loadIndexFile ((runHistory maxLoc m .empty h).index (indexFileName k [])) = .ok (ids.map (Nat.cast : ℕ → ℤ)) ∧
      loadIndexFile ((runHistory maxLoc' m' .empty h').index (indexFileName k' [])) = .ok (ids'.map (Nat.cast : ℕ → ℤ)) ∧
      ∀ (cf cf' : Option (List (ℕ × List ℚ × ℚ × ℚ))), w.coord w.cwd = cf.map asCoord → (∀ c', cf = some c' → List.Forall₂ SameRow rows c') →
        w'.coord w'.cwd = cf'.map asCoord → (∀ c', cf' = some c' → List.Forall₂ SameRow rows' c') →
      ∃ f f', textFrame w ch files = .ok f ∧ textFrame w' ch' files' = .ok f' ∧
      ∀ (a0 : ArrayAnalysis) (o : NonlinearOptions), (∃ i, 1 ≤ i ∧ i ≤ n ∧ a0.ref.selects i = true) → ∀ r : Except PyErr (List (Fin a0.layers → ℝ)),
        ((a0.withFiles k ids rows).ResultOf ((a0.withFiles k ids rows).inputOf (frameData f "sum_col_val" k)) r ↔
          (a0.withFiles k' ids' rows').ResultOf ((a0.withFiles k' ids' rows').inputOf (frameData f' "sum_col_val" k')) r) ∧
        ((a0.withFiles k ids rows).NonlinearResultOf o ((a0.withFiles k ids rows).inputOf (frameData f "sum_col_val" k)) r ↔
          (a0.withFiles k' ids' rows').NonlinearResultOf o ((a0.withFiles k' ids' rows').inputOf (frameData f' "sum_col_val" k')) r) := by
  have hkl : k < edges.length := lt_of_lt_of_le (List.getElem?_eq_some_iff.1 hk).1 hr.measured
  obtain ⟨T, B, hTB⟩ : ∃ T B, edges[k]? = some (T, B) := ⟨_, _, List.getElem?_eq_getElem hkl⟩
  obtain ⟨T', B', hTB'⟩ : ∃ T B, edges'[k']? = some (T, B) :=
    ⟨_, _, List.getElem?_eq_getElem (lt_of_lt_of_le (List.getElem?_eq_some_iff.1 hk').1 hr'.measured)⟩
  have hids : t.map (·.1) = List.range t.length := by
    have hd := history_agrees maxLoc m h
    rw [hr.matched] at hd
    obtain ⟨t', files, a1, a2, a3, a4, a5, a6, a7⟩ := hd
    exact a6
  obtain ⟨x1, x2, rows, x3, x4, ⟨f, l, pf, pl, x5, x6, x7, x8, x9, x10⟩, x11⟩ := hr.reads fit k c hk T B hTB
  obtain ⟨y1, y2, rows', y3, y4, ⟨f', l', pf', pl', y5, y6, y7, y8, y9, y10⟩, y11⟩ := hr'.reads fit' k' c' hk' T' B' hTB'
  refine ⟨rows, rows', _, _, x3, y3, x4, y4, ?_⟩
  intro cf cf' hcf hcr hcf' hcr'
  obtain ⟨g, u, g1, g2, g3⟩ := x11 cf hcf hcr
  obtain ⟨g', u', g1', g2', g3'⟩ := y11 cf' hcf' hcr'
  refine ⟨g, g', g1, g1', ?_⟩
  intro a0 o href r
  have hmem : ∀ s, s ∈ c' → s ∈ c := fun s hs => hc.1.mem_iff.2 hs
  set place : ℕ → P3 := fun s => ((rows.map (·.pos))[newNumber arrays k c s]?).getD (0, 0, 0) with hplace
  set light : ℕ → ℕ → ℝ := fun i s => u i (newNumber arrays k c s) with hlight
  have hpl : ∀ s ∈ c, (rows.map (·.pos))[newNumber arrays k c s]? = some (place s) := by
    intro s hs
    obtain ⟨p, q, _, _, e⟩ := x10 s hs
    simp only [hplace, e, Option.getD_some]
  have hpl' : ∀ s ∈ c', (rows'.map (·.pos))[newNumber arrays' k' c' s]? = some (place s) := by
    intro s hs
    obtain ⟨p, q, e1, e2, e3⟩ := x10 s (hmem s hs)
    obtain ⟨p', q', e1', e2', e3'⟩ := y10 s hs
    rw [e3']
    simp only [hplace, e3, Option.getD_some]
    congr 2
    rw [row_unique t hids s p' p e1' e1] at e2'
    rcases hc.2 with ⟨z1, z2, z3⟩ | ⟨z1, z2, z3⟩
    · rw [z1, y5, Option.some.injEq] at x5
      rw [z2, y6, Option.some.injEq] at x6
      subst x5 x6
      rw [row_unique t hids f' pf' pf y7 x7, row_unique t hids l' pl' pl y8 x8] at e2'
      rw [hTB, hTB', Option.some.injEq, Prod.mk.injEq] at z3
      rw [z3.1, z3.2, C33_fraction_unique _ _ _ x9 q q' e2 e2']
    · rw [z1, y6, Option.some.injEq] at x5
      rw [z2, y5, Option.some.injEq] at x6
      subst x5 x6
      rw [row_unique t hids f' pf' pl y7 x8, row_unique t hids l' pl' pf y8 x7] at e2'
      rw [hTB, hTB', Option.map_some, Option.some.injEq] at z3
      obtain ⟨z3, z4⟩ := Prod.mk.injEq _ _ _ _ ▸ z3
      simp only at z3 z4
      rw [z3, z4, lerp3_swap, C33_fraction_unique _ _ _ x9 q (1 - q') e2 (fraction_swap _ _ _ _ e2')]
  have hu' : ∀ i, 1 ≤ i → i ≤ n → ∀ s ∈ c', u' i (newNumber arrays' k' c' s) = light i s := by
    intro i h1 h2 s hs
    obtain ⟨p, e1, e2⟩ := g3 i h1 h2 s (hmem s hs)
    obtain ⟨p', e1', e2'⟩ := g3' i h1 h2 s hs
    rw [e2']
    simp only [hlight, e2]
    rw [row_unique t hids s p' p e1' e1]
  have i1 := numbered_table (a0.withFiles k (c.map (newNumber arrays k c)).reverse rows) n hr.images c (newNumber arrays k c) place light u x1 x2 rfl
    hpl (fun i _ _ s _ => rfl) href
  have i2 := numbered_table (a0.withFiles k' (c'.map (newNumber arrays' k' c')).reverse rows') n hr.images c' (newNumber arrays' k' c') place light u'
    y1 y2 rfl hpl' hu' href
  rw [g2, g2', i1, i2]
  exact results_perm hc.1 a0 _ _ o (firstImgs n) r

/-! A case of C160: the column of five LEDs, once from the first LED to the last one, once from the last LED to the first one. -/

def upOptions : Step2Options := ⟨"4 0".toList, "None".toList, none⟩

theorem column_up : arraysOf pairMetric upOptions columnTable = .ok [[4, 3, 2, 1, 0]] := by
  have h : (arraysOf pairMetric upOptions columnTable).toOption = some [[4, 3, 2, 1, 0]] := by decide +kernel
  cases e : arraysOf pairMetric upOptions columnTable with
  | error x => rw [e] at h; cases h
  | ok v => rw [e] at h; simp only [Except.toOption, Option.some.injEq] at h; rw [h]

theorem column_up_stage : Stage.ofHistory firstMaxLoc pairMetric [.steps12 columnJob upOptions] = .matched columnTable [[4, 3, 2, 1, 0]] none := by
  unfold Stage.ofHistory
  simp only [List.foldl_cons, List.foldl_nil, Stage.after, column_table]
  unfold Stage.detect
  rw [if_neg (by unfold columnTable; simp)]
  unfold Stage.match
  simp only [column_up]
  rw [if_neg (by simp)]
  rfl

theorem columnPhoto_measured (arrays : List (List ℕ)) (i : ℕ) : Photographed columnTable arrays 1 (columnPhoto i) := by
  refine ⟨by decide, ?_, ?_⟩
  · intro old p _ h
    simp only [columnTable, List.mem_cons, Prod.mk.injEq, List.not_mem_nil, or_false] at h
    rcases h with ⟨_, rfl⟩ | ⟨_, rfl⟩ | ⟨_, rfl⟩ | ⟨_, rfl⟩ | ⟨_, rfl⟩ <;> simp [columnPhoto]
  · intro r c _ _
    simp only [columnPhoto]
    split
    · split
      · exact ⟨500, by norm_num⟩
      · exact ⟨1000, by norm_num⟩
    · exact ⟨0, by norm_num⟩

theorem strip_good : GoodInfos stripInfos := by
  refine ⟨?_, by unfold CsvSafe; decide, by decide⟩
  intro k hk
  match k, hk with
  | 0, _ => rfl
  | 1, _ => rfl

theorem column_down_run : ReadyRun firstMaxLoc pairMetric [.steps12 columnJob (columnOptions "None")] columnTable [[0, 1, 2, 3, 4]]
    [((0, 0, 4), (0, 0, 0))] stripDir 0 2 stripInfos "exp".toList 1 columnPhoto (fun i => (step3File ⟨1, none⟩ (infoFile stripInfos) "exp".toList 0 1 0
      (columnPhoto i) none (natStr i) (runHistory firstMaxLoc pairMetric .empty [.steps12 columnJob (columnOptions "None")])).toOption) := by
  refine ⟨column_stage "None" _ (by simp) column_all, by decide, by simp, ?_, rfl, by norm_num, rfl, strip_good, by decide, by decide +kernel,
    columnPhoto_measured _, fun i _ _ => rfl⟩
  intro k hk
  have : k = 0 := by simpa using hk
  subst this
  exact ⟨[0, 1, 2, 3, 4], 0, 4, (2, 3), (14, 3), rfl, rfl, rfl, by decide, by decide, by decide⟩

theorem column_up_run : ReadyRun firstMaxLoc pairMetric [.steps12 columnJob upOptions] columnTable [[4, 3, 2, 1, 0]]
    [((0, 0, 0), (0, 0, 4))] stripDir 0 2 stripInfos "exp".toList 1 columnPhoto (fun i => (step3File ⟨1, none⟩ (infoFile stripInfos) "exp".toList 0 1 0
      (columnPhoto i) none (natStr i) (runHistory firstMaxLoc pairMetric .empty [.steps12 columnJob upOptions])).toOption) := by
  refine ⟨column_up_stage, by decide, by simp, ?_, rfl, by norm_num, rfl, strip_good, by decide, by decide +kernel,
    columnPhoto_measured _, fun i _ _ => rfl⟩
  intro k hk
  have : k = 0 := by simpa using hk
  subst this
  exact ⟨[4, 3, 2, 1, 0], 4, 0, (14, 3), (2, 3), rfl, rfl, rfl, by decide, by decide, by decide⟩

example : ∃ rows rows' ids ids' f f',
    calculateCoordinates (fun _ => ⟨0, 1, 0⟩) 1 [((0, 0, 4), (0, 0, 0))]
      (runHistory firstMaxLoc pairMetric .empty [.steps12 columnJob (columnOptions "None")]) = .ok rows ∧
    calculateCoordinates (fun _ => ⟨0, 1, 0⟩) 1 [((0, 0, 0), (0, 0, 4))]
      (runHistory firstMaxLoc pairMetric .empty [.steps12 columnJob upOptions]) = .ok rows' ∧
    ∀ r, (columnAnalysis.withFiles 0 ids rows).ResultOf ((columnAnalysis.withFiles 0 ids rows).inputOf (frameData f "sum_col_val" 0)) r ↔
      (columnAnalysis.withFiles 0 ids' rows').ResultOf ((columnAnalysis.withFiles 0 ids' rows').inputOf (frameData f' "sum_col_val" 0)) r := by
  obtain ⟨rows, rows', ids, ids', h1, h2, _, _, h3⟩ := C160_ends _ _ _ _ _ _ _ _ _ _ _ _ _ _ _ _ _ _ _ _ _ _ _ _ column_down_run column_up_run
    (fun _ => ⟨0, 1, 0⟩) (fun _ => ⟨0, 1, 0⟩) 0 0 _ _ rfl rfl ⟨by decide, .inr ⟨rfl, rfl, rfl⟩⟩
  obtain ⟨f, f', _, _, h4⟩ := h3 none none rfl (by simp) rfl (by simp)
  exact ⟨rows, rows', ids, ids', f, f', h1, h2, fun r => (h4 columnAnalysis ⟨0, 0, 0⟩ ⟨1, le_rfl, by norm_num, by decide +kernel⟩ r).1⟩

end Ledsa
