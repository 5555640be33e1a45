import Verif.Props.Frames
import Verif.Props.NonlinearUnit
import Verif.Props.Smoothing

/-!
# Heights measured downwards

The vertical axis of the room may point down, for example if distances below the ceiling are measured. The domain is then given from
`-hi` to `-lo`, and the layers come in the opposite order. Another origin is the matter of C147.
-/

namespace Ledsa

/-- A point with the vertical axis turned round. -/
def downwards (p : P3) : P3 := (p.1, p.2.1, -p.2.2)

/-- A layer with the vertical axis turned round. -/
def Layer.downwards (l : Layer) : Layer := ⟨-l.top, -l.bottom⟩

/-- The lengths of a ray with the layers in the opposite order. -/
def LayerDists.reversed : LayerDists → LayerDists
  | .missing => .missing
  | .nans => .nans
  | .dists l => .dists l.reverse

/-- The ray does not run along a border of a layer. -/
def OffBorders (cam led : P3) (lo hi : ℝ) (n : ℕ) : Prop := cam.2.2 = led.2.2 → ∀ i ≤ n, cam.2.2 ≠ border lo hi n i

theorem border_downwards (lo hi : ℝ) (n i : ℕ) (hn : 0 < n) (hi' : i ≤ n) : border (-hi) (-lo) n i = -border lo hi n (n - i) := by
  have hn' : (n : ℝ) ≠ 0 := by exact_mod_cast hn.ne'
  unfold border
  push_cast [hi']
  field_simp
  ring

/-- **C194.** The layers of the turned domain are the layers turned round, in the opposite order. -/
theorem C194_layers (lo hi : ℝ) (n : ℕ) : layers (-hi) (-lo) n = ((layers lo hi n).map Layer.downwards).reverse := by
  apply List.ext_getElem
  · simp [layers]
  · intro i h1 h2
    have hi' : i < n := by simpa [layers] using h1
    have hn : 0 < n := by omega
    rw [List.getElem_reverse]
    simp only [layers, List.getElem_map, List.getElem_range, List.length_map, List.length_range, Layer.downwards, Layer.mk.injEq]
    rw [border_downwards lo hi n i hn hi'.le, border_downwards lo hi n (i + 1) hn hi']
    constructor
    · congr 2; omega
    · congr 2; omega

theorem horizontal_downwards (p q : P3) : horizontalDist (downwards p) (downwards q) = horizontalDist p q := rfl

theorem euclid_downwards (p q : P3) : euclid (downwards p) (downwards q) = euclid p q := by
  unfold euclid downwards
  congr 1
  ring

theorem alpha_downwards (p q : P3) : alpha (downwards p) (downwards q) = (alpha p q).map fun a => -a := by
  unfold alpha
  rw [horizontal_downwards]
  simp only [downwards, neg_lt_neg_iff]
  split
  · rcases lt_trichotomy p.2.2 q.2.2 with h | h | h
    · simp [h, h.not_gt]
    · simp [h]
    · simp [h, h.not_gt]
  · rw [Option.map_some, ← Real.arctan_neg]
    congr 2
    ring

theorem height_downwards (c l b t : ℝ) : heightInLayer (-c) (-l) (-t) (-b) = heightInLayer c l b t := by
  unfold heightInLayer
  simp only [max_neg_neg, min_neg_neg]
  rw [show -max (min c l) b - -min (max c l) t = min (max c l) t - max (min c l) b by ring]

theorem nonzeroAlpha_downwards (a : ℝ) (cam led : P3) (lo hi : ℝ) (n : ℕ) :
    distNonzeroAlpha (-a) (downwards cam) (downwards led) (layers (-hi) (-lo) n) = (distNonzeroAlpha a cam led (layers lo hi n)).reverse := by
  unfold distNonzeroAlpha
  rw [C194_layers, List.map_reverse, List.map_map]
  congr 1
  refine List.map_congr_left fun l _ => ?_
  simp only [Function.comp_apply, downwards, Layer.downwards]
  rw [height_downwards, Real.sin_neg, div_neg, abs_neg]

theorem inPlane_downwards (cam led : P3) (lo hi : ℝ) (n : ℕ) (h : ∀ i ≤ n, cam.2.2 ≠ border lo hi n i) :
    distInPlane (downwards cam) (downwards led) (layers (-hi) (-lo) n) = (distInPlane cam led (layers lo hi n)).reverse := by
  unfold distInPlane
  rw [C194_layers, List.map_reverse, List.map_map]
  congr 1
  refine List.map_congr_left fun l hl => ?_
  obtain ⟨i, hi', rfl⟩ := List.mem_map.1 hl
  have hi'' := List.mem_range.1 hi'
  simp only [Function.comp_apply, Layer.downwards, horizontal_downwards]
  have e : (-border lo hi n (i + 1) ≤ (downwards cam).2.2 ∧ (downwards cam).2.2 < -border lo hi n i) ↔
      (border lo hi n i ≤ cam.2.2 ∧ cam.2.2 < border lo hi n (i + 1)) := by
    simp only [downwards, neg_le_neg_iff, neg_lt_neg_iff]
    exact ⟨fun ⟨h1, h2⟩ => ⟨h2.le, lt_of_le_of_ne h1 (h _ hi'')⟩, fun ⟨h1, h2⟩ => ⟨h2.le, lt_of_le_of_ne h1 (h _ hi''.le).symm⟩⟩
  simp only [e]

theorem level_of_alpha {cam led : P3} (h : alpha cam led = some 0) : cam.2.2 = led.2.2 := by
  unfold alpha at h
  have hpi := Real.pi_pos
  split at h
  · split at h
    · have := Option.some.inj h; linarith
    · split at h
      · have := Option.some.inj h; linarith
      · cases h
  · rename_i h0
    have h1 := Real.arctan_eq_zero_iff.1 (Option.some.inj h)
    rcases div_eq_zero_iff.1 h1 with h2 | h2
    · linarith
    · exact absurd h2 h0

theorem checked_downwards (cam led : P3) (ds : List ℝ) : checked (downwards cam) (downwards led) ds.reverse = (checked cam led ds).reversed := by
  unfold checked
  rw [euclid_downwards, List.sum_reverse]
  split <;> rfl

/-- **C194, one LED**: with heights measured downwards the lengths of the ray in the layers are the same in the opposite order, unless
the ray runs along a border of layers. -/
theorem C194_ray_partial (cam led : P3) (lo hi : ℝ) (n : ℕ) (h : OffBorders cam led lo hi n) :
    distPerLayer (downwards cam) (downwards led) (layers (-hi) (-lo) n) = (distPerLayer cam led (layers lo hi n)).reversed := by
  unfold distPerLayer
  rw [alpha_downwards]
  cases ha : alpha cam led with
  | none => rfl
  | some a =>
    simp only [Option.map_some, neg_eq_zero]
    by_cases h0 : a = 0
    · subst h0
      simp only [if_true]
      rw [inPlane_downwards cam led lo hi n (h (level_of_alpha ha)), checked_downwards]
    · simp only [h0, if_false]
      rw [nonzeroAlpha_downwards, checked_downwards]

/-! ### Solvers -/

/-- The profile with the layers in the opposite order. -/
def turnedRound {n : ℕ} (σ : Fin n → ℝ) : Fin n → ℝ := fun l => σ l.rev

theorem turnedRound_twice {n : ℕ} (σ : Fin n → ℝ) : turnedRound (turnedRound σ) = σ := by
  funext l
  simp [turnedRound]

theorem depth_turned {n : ℕ} (σ d : Fin n → ℝ) : depth (turnedRound σ) (turnedRound d) = depth σ d := by
  unfold depth turnedRound
  exact Equiv.sum_comp Fin.revPerm fun l => d l * σ l

theorem bending_turned {n : ℕ} (σ : Fin n → ℝ) : bending (turnedRound σ) = bending σ := by
  unfold bending turnedRound
  rw [← Equiv.sum_comp Fin.revPerm]
  refine Finset.sum_congr rfl fun i _ => ?_
  have hi := i.2
  have e0 : (⟨(Fin.revPerm i : Fin (n - 2)), by omega⟩ : Fin n).rev = ⟨i + 2, by omega⟩ := by
    apply Fin.ext; simp [Fin.val_rev]; omega
  have e1 : (⟨(Fin.revPerm i : Fin (n - 2)) + 1, by omega⟩ : Fin n).rev = ⟨i + 1, by omega⟩ := by
    apply Fin.ext; simp [Fin.val_rev]; omega
  have e2 : (⟨(Fin.revPerm i : Fin (n - 2)) + 2, by omega⟩ : Fin n).rev = ⟨i, by omega⟩ := by
    apply Fin.ext; simp [Fin.val_rev]; omega
  rw [e0, e1, e2]
  ring

theorem bends_turned {n : ℕ} (σ : Fin n → ℝ) : bends (turnedRound σ) = bends σ := by
  unfold bends turnedRound
  rw [← Equiv.sum_comp Fin.revPerm]
  refine Finset.sum_congr rfl fun i _ => ?_
  have hi := i.2
  have e0 : (⟨(Fin.revPerm i : Fin (n - 2)), by omega⟩ : Fin n).rev = ⟨i + 2, by omega⟩ := by
    apply Fin.ext; simp [Fin.val_rev]; omega
  have e1 : (⟨(Fin.revPerm i : Fin (n - 2)) + 1, by omega⟩ : Fin n).rev = ⟨i + 1, by omega⟩ := by
    apply Fin.ext; simp [Fin.val_rev]; omega
  have e2 : (⟨(Fin.revPerm i : Fin (n - 2)) + 2, by omega⟩ : Fin n).rev = ⟨i, by omega⟩ := by
    apply Fin.ext; simp [Fin.val_rev]; omega
  rw [e0, e1, e2]
  congr 1
  ring

theorem roughness_turned {n : ℕ} (σ : Fin n → ℝ) : roughness (turnedRound σ) = roughness σ := by
  unfold roughness
  rw [bending_turned]
  congr 1
  exact Equiv.sum_comp Fin.revPerm fun l => σ l ^ 2

theorem misfit_turned {m n : ℕ} (A : Fin m → Fin n → ℝ) (rel : Fin m → ℝ) (σ : Fin n → ℝ) :
    misfit (fun i => turnedRound (A i)) rel (turnedRound σ) = misfit A rel σ := by
  unfold misfit
  simp only [depth_turned]

theorem gradient_aug {m n : ℕ} (A : Fin m → Fin n → ℝ) (lam : ℝ) (rel : Fin m → ℝ) (l : Fin n) :
    ∑ i, augMatrix A lam i l * augRhs n rel i = ∑ led, A led l * opticalDepth (rel led) := by
  rw [Fintype.sum_sum_type]
  simp [augMatrix, augRhs]

theorem linear_turned {m n : ℕ} (A : Fin m → Fin n → ℝ) {lam : ℝ} (hl : 0 ≤ lam) (rel : Fin m → ℝ) (σ : Fin n → ℝ)
    (h : LinearSolution A lam rel σ) : LinearSolution (fun i => turnedRound (A i)) lam rel (turnedRound σ) := by
  refine ⟨⟨fun l => h.nonneg _, fun y hy => ?_⟩, fun hs => ?_⟩
  · have h1 := h.minimal (turnedRound y) fun l => hy _
    rw [aug_residual_split A hl, aug_residual_split A hl] at h1
    rw [aug_residual_split _ hl, aug_residual_split _ hl, misfit_turned, roughness_turned]
    have e := misfit_turned A rel (turnedRound y)
    rw [turnedRound_twice] at e
    rw [e, ← roughness_turned y]
    exact h1
  · have h1 : σ = 0 := h.start fun l => by
      have := hs l.rev
      rw [gradient_aug] at this ⊢
      simpa [turnedRound] using this
    rw [h1]
    rfl

/-- **C194, linear solver**: for rays with the layers in the opposite order it gives the profiles in the opposite order. -/
theorem C194_linear {m n : ℕ} (A : Fin m → Fin n → ℝ) {lam : ℝ} (hl : 0 ≤ lam) (rel : Fin m → ℝ) (σ : Fin n → ℝ) :
    LinearSolution (fun i => turnedRound (A i)) lam rel (turnedRound σ) ↔ LinearSolution A lam rel σ := by
  refine ⟨fun h => ?_, linear_turned A hl rel σ⟩
  have := linear_turned _ hl rel _ h
  simpa only [turnedRound_twice] using this

theorem cost_turned {m n : ℕ} (A : Fin m → Fin n → ℝ) (w p : ℝ) (target : Fin m → ℝ) (σ : Fin n → ℝ) :
    costFunction (fun i => turnedRound (A i)) w p target (turnedRound σ) = costFunction A w p target σ := by
  have e : ∀ (B : Fin m → Fin n → ℝ) (τ : Fin n → ℝ) led, calcIntensities B τ led = Real.exp (-depth τ (B led)) := by
    intro B τ led
    rw [C42_beer_lambert]
    unfold depth
    simp only [mul_comm]
  have e1 : rmse (fun i => turnedRound (A i)) target (turnedRound σ) = rmse A target σ := by
    unfold rmse
    simp only [e, depth_turned]
  have e2 : curvature m w (turnedRound σ) = curvature m w σ := by
    have := bends_turned σ
    unfold bends at this
    unfold curvature secondDiff
    rw [this]
  have e3 : preference p (turnedRound σ) = preference p σ := by
    unfold preference
    congr 2
    exact Equiv.sum_comp Fin.revPerm fun l => σ l
  unfold costFunction
  rw [e1, e2, e3]

theorem nearBest_turned {m n : ℕ} (A : Fin m → Fin n → ℝ) (o : NonlinearOptions) (target : Fin m → ℝ) (σ : Fin n → ℝ)
    (h : NearBest A o target σ) : NearBest (fun i => turnedRound (A i)) o target (turnedRound σ) := by
  refine ⟨fun l => h.1 _, fun y hy => ?_⟩
  rw [cost_turned]
  have e := cost_turned A o.curv o.pref target (turnedRound y)
  rw [turnedRound_twice] at e
  rw [e]
  exact h.2 _ fun l => hy _

/-- **C194, nonlinear solver**: every profile has the same cost as the opposite one with the layers in the opposite order, and so the
results are the same in the opposite order. -/
theorem C194_nonlinear {m n : ℕ} (A : Fin m → Fin n → ℝ) (o : NonlinearOptions) (target : Fin m → ℝ) (σ : Fin n → ℝ) :
    NearBest (fun i => turnedRound (A i)) o target (turnedRound σ) ↔ NearBest A o target σ := by
  refine ⟨fun h => ?_, nearBest_turned A o target σ⟩
  have := nearBest_turned _ o target _ h
  simpa only [turnedRound_twice] using this

/-! ### Analysis of an array -/

/-- The analysis with heights measured downwards. -/
noncomputable def ArrayAnalysis.downwards (a : ArrayAnalysis) : ArrayAnalysis :=
  { a with cam := Ledsa.downwards a.cam, lo := -a.hi, hi := -a.lo, coordinates := a.coordinates.map Ledsa.downwards }

/-- What the distances of a ray are to the solver. -/
def LayerDists.row : LayerDists → Option (List ℝ)
  | .dists d => some d
  | _ => none

theorem distanceArray_row (cam : P3) (ls : List Layer) (leds : List P3) :
    distanceArray cam ls leds = leds.reverse.map fun led => (distPerLayer cam led ls).row := by
  unfold distanceArray distanceRows
  refine List.map_congr_left fun p _ => ?_
  cases distPerLayer cam p ls <;> rfl

theorem distPerLayer_length (cam led : P3) (ls : List Layer) (ds : List ℝ) (h : distPerLayer cam led ls = .dists ds) : ds.length = ls.length := by
  have e : ∀ l, checked cam led l = .dists ds → ds = l := by
    intro l hl
    unfold checked at hl
    split at hl
    · cases hl
    · cases hl; rfl
  unfold distPerLayer at h
  split at h
  · cases h
  · split at h
    · rw [e _ h]; simp [distInPlane]
    · rw [e _ h]; simp [distNonzeroAlpha]

theorem rows_reversed (rows : List (Option (List ℝ))) :
    (rows.map (Option.map List.reverse)).mapM id = (rows.mapM id).map (List.map List.reverse) := by
  induction rows with
  | nil => rfl
  | cons x xs ih =>
    rw [List.map_cons, List.mapM_cons, List.mapM_cons, ih]
    cases x with
    | none => rfl
    | some y => cases xs.mapM id <;> rfl

theorem rows_of_mapM (rows : List (Option (List ℝ))) : ∀ M, rows.mapM id = some M → rows = M.map some := by
  induction rows with
  | nil => intro M h; cases h; rfl
  | cons x xs ih =>
    intro M h
    rw [List.mapM_cons] at h
    cases x with
    | none => cases h
    | some y =>
      cases hx : xs.mapM id with
      | none => rw [hx] at h; cases h
      | some t => rw [hx] at h; cases h; rw [List.map_cons, ← ih t hx]

theorem getD_reversed_rows {n : ℕ} (M : List (List ℝ)) (hM : ∀ r ∈ M, r.length = n) (i : ℕ) (hi : i < M.length) :
    (fun (l : Fin n) => ((M.map List.reverse).getD i []).getD l 0) = turnedRound fun (l : Fin n) => (M.getD i []).getD l 0 := by
  funext l
  have hl := l.2
  have h1 : (M[i]).length = n := hM _ (List.getElem_mem hi)
  simp only [turnedRound, List.getD_eq_getElem?_getD, List.getElem?_map, List.getElem?_eq_getElem hi, Option.map_some, Option.getD_some]
  rw [List.getElem?_reverse (by omega), h1, Fin.val_rev]
  congr 2
  omega

theorem linearImage_turned (n : ℕ) (rows : List (Option (List ℝ))) (hrows : ∀ r ∈ rows, ∀ d, r = some d → d.length = n) {lam : ℝ} (hl : 0 ≤ lam)
    (rel : List ℝ) (r : Except PyErr (Fin n → ℝ)) :
    LinearImage n (rows.map (Option.map List.reverse)) lam rel (r.map turnedRound) ↔ LinearImage n rows lam rel r := by
  cases hm : rows.mapM id with
  | none =>
    unfold LinearImage
    rw [rows_reversed, hm]
    cases r <;> simp [Except.map]
  | some M =>
    have hr := rows_of_mapM rows M hm
    subst hr
    have hM : ∀ r ∈ M, r.length = n := fun r hr => hrows (some r) (List.mem_map.2 ⟨r, hr, rfl⟩) r rfl
    have e : (M.map some).map (Option.map List.reverse) = (M.map List.reverse).map some := by
      rw [List.map_map, List.map_map]; rfl
    rw [e, linearImage_rows n _ _ _ _ M.length (by simp), linearImage_rows n _ _ _ _ M.length rfl]
    have e2 : (fun (i : Fin M.length) (l : Fin n) => ((M.map List.reverse).getD i []).getD l 0) =
        fun (i : Fin M.length) => turnedRound fun (l : Fin n) => (M.getD i []).getD l 0 := by
      funext i
      exact getD_reversed_rows M hM i i.2
    rw [e2]
    split
    · cases r with
      | error e => simp [Except.map]
      | ok σ => simp only [Except.map, Except.ok.injEq, exists_eq_left', C194_linear _ hl]
    · cases r <;> simp [Except.map]

theorem nonlinearImage_turned (n : ℕ) (rows : List (Option (List ℝ))) (hrows : ∀ r ∈ rows, ∀ d, r = some d → d.length = n)
    (o : NonlinearOptions) (rel : List ℝ) (r : Except PyErr (Fin n → ℝ)) :
    NonlinearImage n (rows.map (Option.map List.reverse)) o rel (r.map turnedRound) ↔ NonlinearImage n rows o rel r := by
  cases hm : rows.mapM id with
  | none =>
    unfold NonlinearImage
    rw [rows_reversed, hm]
    rfl
  | some M =>
    have hr := rows_of_mapM rows M hm
    subst hr
    have hM : ∀ r ∈ M, r.length = n := fun r hr => hrows (some r) (List.mem_map.2 ⟨r, hr, rfl⟩) r rfl
    have e : (M.map some).map (Option.map List.reverse) = (M.map List.reverse).map some := by
      rw [List.map_map, List.map_map]; rfl
    rw [e, nonlinearImage_rows n _ _ _ M.length (by simp), nonlinearImage_rows n _ _ _ M.length rfl]
    have e2 : (fun (i : Fin M.length) (l : Fin n) => ((M.map List.reverse).getD i []).getD l 0) =
        fun (i : Fin M.length) => turnedRound fun (l : Fin n) => (M.getD i []).getD l 0 := by
      funext i
      exact getD_reversed_rows M hM i i.2
    rw [e2]
    split
    · cases r with
      | error e => simp [Except.map]
      | ok σ => simp only [Except.map, Except.ok.injEq, exists_eq_left', C194_nonlinear]
    · split
      · rfl
      · cases r <;> simp [Except.map]

theorem results_turned {n : ℕ} (R R' : List ℝ → Except PyErr (Fin n → ℝ) → Prop) (h : ∀ x y, R' x (y.map turnedRound) ↔ R x y)
    (rels : List (List ℝ)) (r : Except PyErr (List (Fin n → ℝ))) :
    (∃ rs, List.Forall₂ R' rels rs ∧ r.map (List.map turnedRound) = rs.mapM id) ↔ ∃ rs, List.Forall₂ R rels rs ∧ r = rs.mapM id := by
  have ht : ∀ x : Except PyErr (Fin n → ℝ), (x.map turnedRound).map turnedRound = x := by
    intro x
    cases x <;> simp [Except.map, turnedRound_twice]
  have hr : ∀ x : Except PyErr (List (Fin n → ℝ)), (x.map (List.map turnedRound)).map (List.map turnedRound) = x := by
    intro x
    cases x with
    | error e => rfl
    | ok l =>
      have : (turnedRound ∘ turnedRound : (Fin n → ℝ) → Fin n → ℝ) = id := by
        funext σ
        exact turnedRound_twice σ
      simp [Except.map, this]
  constructor
  · rintro ⟨rs, h1, h2⟩
    have e : (rs.map (Except.map turnedRound)).map (Except.map turnedRound) = rs := by
      rw [List.map_map]
      conv_rhs => rw [← List.map_id rs]
      exact List.map_congr_left fun x _ => ht x
    refine ⟨rs.map (Except.map turnedRound), ?_, ?_⟩
    · rw [← e] at h1
      exact (forall₂_unit _ _ _ h rels _).1 h1
    · rw [mapM_id_map, ← h2, hr]
  · rintro ⟨rs, h1, rfl⟩
    exact ⟨rs.map (Except.map turnedRound), (forall₂_unit _ _ _ h rels _).2 h1, (mapM_id_map _ rs).symm⟩

/-- **C194** (partial), **analysis of an array**: if no ray runs along a border of layers, the analysis with heights measured downwards
gives the same smoke with the layers in the opposite order, for every measured table and with both solvers, including the failures.
Missing: rays along borders, see `C194_false`. -/
theorem C194_array_partial (a : ArrayAnalysis) (hl : 0 ≤ a.lam)
    (hoff : ∀ x ∈ a.ids, ∀ p, a.coordinates[x]? = some p → OffBorders a.cam p a.lo a.hi a.layers)
    (data : Except PyErr (ImgData ℝ)) (o : NonlinearOptions) (r : Except PyErr (List (Fin a.layers → ℝ))) :
    (a.downwards.ResultOf (a.downwards.inputOf data) (r.map (List.map turnedRound)) ↔ a.ResultOf (a.inputOf data) r) ∧
    (a.downwards.NonlinearResultOf o (a.downwards.inputOf data) (r.map (List.map turnedRound)) ↔
      a.NonlinearResultOf o (a.inputOf data) r) := by
  have herr : ∀ x : PyErr, (r.map (List.map turnedRound) = .error x ↔ r = .error x) := by
    intro x
    cases r <;> simp [Except.map]
  have hp' : ledPositions a.downwards.coordinates a.downwards.ids = (ledPositions a.coordinates a.ids).map (List.map Ledsa.downwards) :=
    ledPositions_map _ _ _
  cases hp : ledPositions a.coordinates a.ids with
  | error x =>
    rw [hp] at hp'
    unfold ArrayAnalysis.inputOf
    rw [hp, hp']
    exact ⟨herr x, herr x⟩
  | ok leds =>
    rw [hp] at hp'
    have hleds := positions_mem a.coordinates a.ids leds hp
    cases data with
    | error x =>
      unfold ArrayAnalysis.inputOf
      rw [hp, hp']
      exact ⟨herr x, herr x⟩
    | ok d =>
      rw [a.inputOf_ok leds hp, a.downwards.inputOf_ok (leds.map Ledsa.downwards) hp']
      rw [show a.downwards.parallel = a.parallel from rfl, show a.downwards.ref = a.ref from rfl]
      generalize (if a.parallel = true then poolRel d (refIntensities a.ref d) else serialRel d (refIntensities a.ref d)) = rr
      cases rr with
      | error x => exact ⟨herr x, herr x⟩
      | ok rels =>
        have e : distanceArray a.downwards.cam (layers a.downwards.lo a.downwards.hi a.downwards.layers) (leds.map Ledsa.downwards) =
            (distanceArray a.cam (layers a.lo a.hi a.layers) leds).map (Option.map List.reverse) := by
          rw [distanceArray_row, distanceArray_row, ← List.map_reverse, List.map_map, List.map_map]
          refine List.map_congr_left fun p hpm => ?_
          obtain ⟨x, hx, hxp⟩ := hleds p (List.mem_reverse.1 hpm)
          have := C194_ray_partial a.cam p a.lo a.hi a.layers (hoff x hx p hxp)
          simp only [Function.comp_apply, ArrayAnalysis.downwards, this]
          cases distPerLayer a.cam p (layers a.lo a.hi a.layers) <;> rfl
        have hrows : ∀ r ∈ distanceArray a.cam (layers a.lo a.hi a.layers) leds, ∀ d, r = some d → d.length = a.layers := by
          intro r hr d hd
          rw [distanceArray_row] at hr
          obtain ⟨p, _, rfl⟩ := List.mem_map.1 hr
          cases hdp : distPerLayer a.cam p (layers a.lo a.hi a.layers) with
          | missing => rw [hdp] at hd; cases hd
          | nans => rw [hdp] at hd; cases hd
          | dists l =>
            rw [hdp] at hd
            cases hd
            rw [distPerLayer_length _ _ _ _ hdp]
            simp [layers]
        simp only [Except.map]
        rw [e]
        exact ⟨results_turned _ _ (linearImage_turned a.layers _ hrows hl) rels r,
          results_turned _ _ (nonlinearImage_turned a.layers _ hrows o) rels r⟩

/-! ### Rays along borders -/

/-- The claim for one LED without the restriction. -/
def HeightsMayPointDown : Prop := ∀ (cam led : P3) (lo hi : ℝ) (n : ℕ), 1 ≤ n → lo < hi → lo ≤ cam.2.2 → cam.2.2 ≤ hi → lo ≤ led.2.2 → led.2.2 ≤ hi →
  distPerLayer (downwards cam) (downwards led) (layers (-hi) (-lo) n) = (distPerLayer cam led (layers lo hi n)).reversed

theorem level_ray (z lo hi : ℝ) (n : ℕ) : open Classical in
    distPerLayer (0, 0, z) (1, 0, z) (layers lo hi n) = checked (0, 0, z) (1, 0, z)
      ((layers lo hi n).map fun l => if l.bottom ≤ z ∧ z < l.top then 1 else 0) := by
  classical
  have hh : horizontalDist (0, 0, z) (1, 0, z) = 1 := by norm_num [horizontalDist]
  have ha : alpha (0, 0, z) (1, 0, z) = some 0 := by
    unfold alpha
    rw [hh]
    norm_num
  unfold distPerLayer
  rw [ha]
  simp only [if_true]
  unfold distInPlane
  rw [hh]

theorem level_euclid (z : ℝ) : euclid (0, 0, z) (1, 0, z) = 1 := by norm_num [euclid]

theorem two_layers (lo : ℝ) : layers lo (lo + 2) 2 = [⟨lo, lo + 1⟩, ⟨lo + 1, lo + 2⟩] := by
  norm_num [layers, border, List.range_succ]

/-- **C194 refuted for rays along borders.** The border between two layers belongs to the upper one, and the upper end of the domain to
none. Camera and LED at the height of the border: whatever way heights are measured, the program takes the layer with the larger
coordinate, which is the lower one with heights measured downwards. Camera and LED at the upper end: the ray is missing with heights
measured upwards only. -/
theorem C194_false : ¬ HeightsMayPointDown ∧
    (distPerLayer (0, 0, 1) (1, 0, 1) (layers 0 2 2) = .dists [0, 1] ∧
      distPerLayer (downwards (0, 0, 1)) (downwards (1, 0, 1)) (layers (-2) (-0) 2) = .dists [0, 1]) ∧
    (distPerLayer (0, 0, 2) (1, 0, 2) (layers 0 2 2) = .missing ∧
      distPerLayer (downwards (0, 0, 2)) (downwards (1, 0, 2)) (layers (-2) (-0) 2) = .dists [1, 0]) := by
  have hL : layers 0 2 2 = [⟨0, 1⟩, ⟨1, 2⟩] := by
    have := two_layers 0
    norm_num at this
    exact this
  have hL' : layers (-2) (-0) 2 = [⟨-2, -1⟩, ⟨-1, 0⟩] := by
    have := two_layers (-2)
    norm_num at this ⊢
    exact this
  have h1 : distPerLayer (0, 0, 1) (1, 0, 1) (layers 0 2 2) = .dists [0, 1] := by
    rw [level_ray, hL]
    unfold checked
    rw [level_euclid]
    norm_num
  have h2 : distPerLayer (downwards (0, 0, 1)) (downwards (1, 0, 1)) (layers (-2) (-0) 2) = .dists [0, 1] := by
    show distPerLayer (0, 0, -1) (1, 0, -1) _ = _
    rw [level_ray, hL']
    unfold checked
    rw [level_euclid]
    norm_num
  have h3 : distPerLayer (0, 0, 2) (1, 0, 2) (layers 0 2 2) = .missing := by
    rw [level_ray, hL]
    unfold checked
    rw [level_euclid]
    norm_num
  have h4 : distPerLayer (downwards (0, 0, 2)) (downwards (1, 0, 2)) (layers (-2) (-0) 2) = .dists [1, 0] := by
    show distPerLayer (0, 0, -2) (1, 0, -2) _ = _
    rw [level_ray, hL']
    unfold checked
    rw [level_euclid]
    norm_num
  refine ⟨fun h => ?_, ⟨h1, h2⟩, h3, h4⟩
  have := h (0, 0, 1) (1, 0, 1) 0 2 2 (by norm_num) (by norm_num) (by norm_num) (by norm_num) (by norm_num) (by norm_num)
  rw [h1, h2] at this
  have := LayerDists.dists.inj this
  norm_num at this

/-! ### Example -/

/-- A level ray inside the upper of two layers is in the first layer of the turned domain. -/
example : distPerLayer (0, 0, 3 / 2) (1, 0, 3 / 2) (layers 0 2 2) = .dists [0, 1] ∧
    distPerLayer (0, 0, -(3 / 2)) (1, 0, -(3 / 2)) (layers (-2) (-0) 2) = .dists [1, 0] := by
  have hL : layers 0 2 2 = [⟨0, 1⟩, ⟨1, 2⟩] := by
    have := two_layers 0
    norm_num at this
    exact this
  have h1 : distPerLayer (0, 0, 3 / 2) (1, 0, 3 / 2) (layers 0 2 2) = .dists [0, 1] := by
    rw [level_ray, hL]
    unfold checked
    rw [level_euclid]
    norm_num
  refine ⟨h1, ?_⟩
  have h := C194_ray_partial (0, 0, 3 / 2) (1, 0, 3 / 2) 0 2 2 (fun _ i hi => by
    interval_cases i <;> norm_num [border])
  rw [h1] at h
  exact h

end Ledsa
