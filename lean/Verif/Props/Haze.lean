import Verif.Props.Pipeline
import Verif.Props.RayGeometry
import Verif.Props.Locality

/-!
# Haze in the reference images (C175)

The intensities of the reference images stand for clear air: `calc_and_set_coefficients`, /repo/ledsa/analysis/ExtinctionCoefficients.py
73-103, divides the intensities of each image by `self.ref_intensities`, the means of lines 179-191. The specification here
is a series of images whose reference images were taken through smoke as well.
-/

namespace Ledsa
open scoped BigOperators

/-- An LED array seen through smoke, as `SmokeExperiment`, but the reference images are taken through `haze`. -/
structure HazyExperiment (a : ArrayAnalysis) (leds : List ℕ) (pos : ℕ → P3) (files : ℕ → List (ℕ × ℕ × ℝ)) (N : ℕ)
    (emit : ℕ → ℝ) (smoke : ℕ → Fin a.layers → ℝ) (haze : Fin a.layers → ℝ) : Prop where
  ids : a.ids = leds.reverse
  ascending : leds.Pairwise (· < ·)
  nonempty : leds ≠ []
  positions : ∀ l ∈ leds, a.coordinates[l]? = some (pos l)
  layers : 1 ≤ a.layers
  domain : a.lo < a.hi
  rays : ∀ l ∈ leds, RayInDomain a.cam (pos l) a.lo a.hi
  emits : ∀ l ∈ leds, 0 < emit l
  nodup : ∀ i, 1 ≤ i → i ≤ N → ((files i).map (·.1)).Nodup
  measured : ∀ i, 1 ≤ i → i ≤ N → ∀ l x, (l, a.arr, x) ∈ files i ↔
    l ∈ leds ∧ x = emit l * Real.exp (-lineDepth a.cam (pos l) a.lo a.hi (smoke i))
  hazy : ∀ i, 1 ≤ i → i ≤ N → a.ref.selects i = true → smoke i = haze
  reference : ∃ i, 1 ≤ i ∧ i ≤ N ∧ a.ref.selects i = true

/-- **C175.** Result files of a series with hazy reference images are, value by value, those of a series with clear reference images,
weaker LEDs and less smoke. -/
theorem C175_indistinguishable (a : ArrayAnalysis) (leds : List ℕ) (pos : ℕ → P3) (files : ℕ → List (ℕ × ℕ × ℝ)) (N : ℕ)
    (emit : ℕ → ℝ) (smoke : ℕ → Fin a.layers → ℝ) (haze : Fin a.layers → ℝ) :
    HazyExperiment a leds pos files N emit smoke haze ↔
      SmokeExperiment a leds pos files N (fun l => emit l * Real.exp (-lineDepth a.cam (pos l) a.lo a.hi haze))
        fun i j => smoke i j - haze j := by
  have hx : ∀ i l, emit l * Real.exp (-lineDepth a.cam (pos l) a.lo a.hi haze) *
      Real.exp (-lineDepth a.cam (pos l) a.lo a.hi fun j => smoke i j - haze j) =
        emit l * Real.exp (-lineDepth a.cam (pos l) a.lo a.hi (smoke i)) := by
    intro i l
    rw [mul_assoc, ← Real.exp_add, lineDepth_sub]
    congr 2
    ring
  constructor
  · intro h
    refine ⟨h.ids, h.ascending, h.nonempty, h.positions, h.layers, h.domain, h.rays, fun l hl => mul_pos (h.emits l hl) (Real.exp_pos _),
      h.nodup, ?_, ?_, h.reference⟩
    · intro i h1 h2 l x
      rw [hx]
      exact h.measured i h1 h2 l x
    · intro i h1 h2 h3
      rw [h.hazy i h1 h2 h3]
      funext j
      exact sub_self _
  · intro h
    refine ⟨h.ids, h.ascending, h.nonempty, h.positions, h.layers, h.domain, h.rays,
      fun l hl => pos_of_mul_pos_left (h.emits l hl) (Real.exp_pos _).le, h.nodup, ?_, ?_, h.reference⟩
    · intro i h1 h2 l x
      rw [← hx]
      exact h.measured i h1 h2 l x
    · intro i h1 h2 h3
      funext j
      exact sub_eq_zero.1 (congrFun (h.clear i h1 h2 h3) j)

theorem ten_log_ten : (23 : ℝ) ≤ 10 * Real.log 10 := by
  have : (23 : ℝ) / 10 ≤ Real.log 10 := by
    rw [Real.le_log_iff_exp_le (by norm_num)]
    have h1 := Real.exp_one_lt_d9
    have h2 : Real.exp (23 / 10) ^ 10 = Real.exp 1 ^ 23 := by
      rw [← Real.exp_nat_mul, ← Real.exp_nat_mul]; norm_num
    have h3 : Real.exp 1 ^ 23 ≤ 10 ^ 10 := by
      calc Real.exp 1 ^ 23 ≤ 2.7182818286 ^ 23 := by gcongr
        _ ≤ 10 ^ 10 := by norm_num
    have h4 : Real.exp (23 / 10) ^ 10 ≤ 10 ^ 10 := h2 ▸ h3
    exact le_of_pow_le_pow_left₀ (by norm_num) (by norm_num) h4
  linarith

/-- An image in which no LED is darker than in the reference images gives zeros. -/
theorem linearImage_bright {n : ℕ} (leds : List ℕ) (ds : ℕ → List ℝ) (lam : ℝ) (rel : ℕ → ℝ) (h : ∀ l ∈ leds, 1 ≤ rel l)
    (r : Except PyErr (Fin n → ℝ)) :
    LinearImage n (leds.map fun l => some (ds l)) lam (leds.map rel) r ↔ r = .ok fun _ => 0 := by
  unfold LinearImage
  have hM : (leds.map fun l => some (ds l)).mapM id = some (leds.map ds) := by
    rw [← mapM_id_some (leds.map ds), List.map_map]; rfl
  rw [hM]
  simp only
  rw [if_pos (by simp)]
  have hrel : ∀ i : Fin (leds.map ds).length, 1 ≤ (leds.map rel).getD i 0 := by
    intro i
    have hi : (i : ℕ) < leds.length := by have := i.2; simpa using this
    rw [List.getD_eq_getElem?_getD, List.getElem?_map, List.getElem?_eq_getElem hi]
    exact h _ (List.getElem_mem hi)
  constructor
  · rintro ⟨x, hr, hx⟩
    rw [hr, (C44_clear_air _ _ _ hrel _).1 hx]
    rfl
  · rintro rfl
    exact ⟨_, rfl, (C44_clear_air _ _ _ hrel _).2 rfl⟩

/-- **C175.** What is found is the smoke beyond the haze of the reference images: the difference of the coefficients where the
smoke is denser, and no smoke at all in images that are nowhere denser than the haze. -/
theorem C175_excess (a : ArrayAnalysis) (leds : List ℕ) (pos : ℕ → P3) (files : ℕ → List (ℕ × ℕ × ℝ)) (N : ℕ)
    (emit : ℕ → ℝ) (smoke : ℕ → Fin a.layers → ℝ) (haze : Fin a.layers → ℝ) (h : HazyExperiment a leds pos files N emit smoke haze)
    (h3 : 3 ≤ a.layers) (hlam : 0 < a.lam)
    (himg : ∀ i, 1 ≤ i → i ≤ N → (∀ k, smoke i k ≤ haze k) ∨ ((∀ k, haze k ≤ smoke i k) ∧ (Affine fun k => smoke i k - haze k) ∧
      ∀ l ∈ leds, lineDepth a.cam (pos l) a.lo a.hi (smoke i) ≤ lineDepth a.cam (pos l) a.lo a.hi haze + 23))
    (hdet : ∀ σ τ : Fin a.layers → ℝ, Affine σ → Affine τ →
      (∀ l ∈ leds, lineDepth a.cam (pos l) a.lo a.hi σ = lineDepth a.cam (pos l) a.lo a.hi τ) → σ = τ)
    (r : Except PyErr (List (Fin a.layers → ℝ))) :
    a.Result files N r ↔ r = .ok ((firstImgs N).map fun i k => max (smoke i k - haze k) 0) := by
  obtain ⟨ds, hin, hds⟩ := C95_input a leds pos files N _ _ ((C175_indistinguishable a leds pos files N emit smoke haze).1 h)
  refine result_iff a files N _ (firstImgs N) _ (fun i k => max (smoke i k - haze k) 0) hin ?_ r
  intro i hi r
  rw [mem_firstImgs] at hi
  rcases himg i hi.1 hi.2 with hle | ⟨hge, haff, hthin⟩
  · have h0 : (fun k => max (smoke i k - haze k) 0) = fun _ => (0 : ℝ) :=
      funext fun k => max_eq_right (by linarith [hle k])
    rw [h0]
    apply linearImage_bright leds ds a.lam fun l => Real.exp (-lineDepth a.cam (pos l) a.lo a.hi fun j => smoke i j - haze j)
    intro l _
    apply Real.one_le_exp
    rw [lineDepth_sub]
    linarith [lineDepth_mono a.cam (pos l) a.lo a.hi _ _ hle]
  · have h0 : (fun k => max (smoke i k - haze k) 0) = fun k => smoke i k - haze k :=
      funext fun k => max_eq_left (by linarith [hge k])
    rw [h0]
    refine linearImage_iff leds ds a.lam (fun k => smoke i k - haze k) (fun l τ => lineDepth a.cam (pos l) a.lo a.hi τ)
      (fun l hl τ => (hds l hl).2.2 τ) ?_ r
    intro m A hA hA' x
    apply C43_linear_profile_partial h3 A
    · intro i k
      obtain ⟨l, hl, he⟩ := hA i
      rw [he]
      simp only [List.getD_eq_getElem?_getD]
      cases hk : (ds l)[(k : ℕ)]? with
      | none => simp
      | some d => simpa using (hds l hl).2.1 d (List.mem_of_getElem? hk)
    · intro σ τ hσ hτ heq
      apply hdet σ τ hσ hτ
      intro l hl
      obtain ⟨j, hj⟩ := hA' l hl
      have := heq j
      rw [hj] at this
      rw [← (hds l hl).2.2 σ, ← (hds l hl).2.2 τ]
      exact this
    · exact hlam
    · intro k
      linarith [hge k]
    · exact haff
    · intro j
      obtain ⟨l, hl, he⟩ := hA j
      have hd : depth (fun k => smoke i k - haze k) (A j) = lineDepth a.cam (pos l) a.lo a.hi fun k => smoke i k - haze k := by
        rw [he]; exact (hds l hl).2.2 _
      rw [hd, lineDepth_sub]
      linarith [hthin l hl, ten_log_ten]

/-! ### Reference images with different haze -/

/-- Mean of `f` over a list. -/
noncomputable def avg (js : List ℕ) (f : ℕ → ℝ) : ℝ := (js.map f).sum / js.length

theorem sum_map_neg_list (js : List ℕ) (f : ℕ → ℝ) : (js.map fun j => -f j).sum = -(js.map f).sum := by
  induction js with
  | nil => simp
  | cons j js ih => simp only [List.map_cons, List.sum_cons, neg_add, ih]

theorem avg_le (js : List ℕ) (hne : js ≠ []) (f : ℕ → ℝ) (c : ℝ) (h : ∀ j ∈ js, f j ≤ c) : avg js f ≤ c := by
  have hl : (0 : ℝ) < js.length := by exact_mod_cast List.length_pos_iff.2 hne
  unfold avg
  rw [div_le_iff₀ hl]
  clear hl hne
  induction js with
  | nil => simp
  | cons j js ih =>
    have h1 := h j (by simp)
    have h2 := ih fun k hk => h k (by simp [hk])
    simp only [List.map_cons, List.sum_cons, List.length_cons, Nat.cast_add, Nat.cast_one]
    linarith

theorem exp_avg_le (js : List ℕ) (hne : js ≠ []) (f : ℕ → ℝ) : Real.exp (avg js f) ≤ avg js fun j => Real.exp (f j) := by
  have hl : (0 : ℝ) < js.length := by exact_mod_cast List.length_pos_iff.2 hne
  set m := avg js f with hm
  -- the tangent of `exp` at the mean
  have ht : ∀ x, Real.exp m * (1 + (x - m)) ≤ Real.exp x := by
    intro x
    have h1 := Real.add_one_le_exp (x - m)
    have h2 : Real.exp x = Real.exp m * Real.exp (x - m) := by rw [← Real.exp_add]; congr 1; ring
    rw [h2]
    exact mul_le_mul_of_nonneg_left (by linarith) (Real.exp_pos _).le
  have hs : ∀ ks : List ℕ, Real.exp m * (ks.length + ((ks.map f).sum - ks.length * m)) ≤ (ks.map fun j => Real.exp (f j)).sum := by
    intro ks
    induction ks with
    | nil => simp
    | cons j ks ih =>
      have := ht (f j)
      simp only [List.map_cons, List.sum_cons, List.length_cons, Nat.cast_add, Nat.cast_one]
      nlinarith
  unfold avg
  rw [le_div_iff₀ hl]
  have h1 := hs js
  have h2 : (js.map f).sum = js.length * m := by
    rw [hm]; unfold avg; field_simp
  rw [h2] at h1
  simpa using h1

/-- **C175.** With several reference images of different haze: the optical depth computed for an LED in image `i` is its loss less a
haze between the least and the mean loss of the reference images. -/
theorem C175_varying (c : RefChoice) (N : ℕ) (leds : List ℕ) (emit : ℕ → ℝ) (hemit : ∀ l ∈ leds, 0 < emit l) (loss : ℕ → ℕ → ℝ)
    (href : ∃ i, 1 ≤ i ∧ i ≤ N ∧ c.selects i = true) (low : ℕ → ℝ)
    (hlow : ∀ l ∈ leds, ∀ j, 1 ≤ j → j ≤ N → c.selects j = true → low l ≤ loss j l) (i : ℕ) :
    ∃ haze : ℕ → ℝ,
      relOf c N leds (fun i l => emit l * Real.exp (-loss i l)) i = leds.map (fun l => Real.exp (-(loss i l - haze l))) ∧
      ∀ l ∈ leds, low l ≤ haze l ∧ haze l ≤ avg ((firstImgs N).filter c.selects) fun j => loss j l := by
  set js := (firstImgs N).filter c.selects with hjs
  have hne : js ≠ [] := by
    obtain ⟨i0, h1, h2, h3⟩ := href
    exact List.ne_nil_of_mem (List.mem_filter.2 ⟨(mem_firstImgs N i0).2 ⟨h1, h2⟩, h3⟩)
  have hpos : ∀ l, 0 < avg js fun j => Real.exp (-loss j l) := fun l =>
    lt_of_lt_of_le (Real.exp_pos _) (exp_avg_le js hne fun j => -loss j l)
  refine ⟨fun l => -Real.log (avg js fun j => Real.exp (-loss j l)), ?_, ?_⟩
  · unfold relOf
    apply List.map_congr_left
    intro l hl
    have hmean : meanOver js (fun i l => emit l * Real.exp (-loss i l)) l = emit l * avg js fun j => Real.exp (-loss j l) := by
      unfold meanOver avg
      rw [List.sum_map_mul_left, mul_div_assoc]
    rw [hmean, mul_div_mul_left _ _ (hemit l hl).ne']
    rw [show -(loss i l - -Real.log (avg js fun j => Real.exp (-loss j l))) =
      -loss i l - Real.log (avg js fun j => Real.exp (-loss j l)) by ring, Real.exp_sub, Real.exp_log (hpos l)]
  · intro l hl
    constructor
    · have h1 : (avg js fun j => Real.exp (-loss j l)) ≤ Real.exp (-low l) := by
        apply avg_le js hne
        intro j hj
        rw [hjs, List.mem_filter, mem_firstImgs] at hj
        exact Real.exp_le_exp.2 (neg_le_neg (hlow l hl j hj.1.1 hj.1.2 hj.2))
      have h2 := (Real.log_le_iff_le_exp (hpos l)).2 h1
      linarith
    · have h1 := exp_avg_le js hne fun j => -loss j l
      have h2 := (Real.le_log_iff_exp_le (hpos l)).2 h1
      have h3 : (avg js fun j => -loss j l) = -avg js fun j => loss j l := by
        unfold avg
        rw [← neg_div, sum_map_neg_list]
      linarith

/-- A case: two reference images, the first clear, the second with a loss of 2; in the third image the loss is 5. The depth computed
for the third image lies between 4 and 5. -/
example : ∃ h : ℝ, relOf (.first 2) 3 [7] (fun i l => 80 * Real.exp (-(if i = 1 then 0 else if i = 2 then 2 else 5))) 3 =
    [Real.exp (-(5 - h))] ∧ 0 ≤ h ∧ h ≤ 1 := by
  obtain ⟨haze, h1, h2⟩ := C175_varying (.first 2) 3 [7] (fun _ => 80) (by simp)
    (fun i _ => if i = 1 then 0 else if i = 2 then 2 else 5) ⟨1, by simp [RefChoice.selects]⟩ (fun _ => 0) (by
      intro l _ j _ _ _
      split
      · exact le_refl _
      · split <;> norm_num) 3
  refine ⟨haze 7, ?_, (h2 7 (by simp)).1, (h2 7 (by simp)).2.trans ?_⟩
  · rw [h1]
    simp
  · have : (firstImgs 3).filter (RefChoice.first 2).selects = [1, 2] := by decide
    rw [this]
    simp [avg]

/-! ### Refutation -/

/-- Smoke of the LEDs in the example: 1 per metre of haze, in the second image 2, 3 and 4 per metre. -/
def hazySmoke (i : ℕ) : Fin 3 → ℝ := fun k => exampleSmoke i k + 1

theorem hazy_example : HazyExperiment exampleAnalysis [0, 1] examplePos exampleFiles 2
    (fun l => if l = 0 then 50 * Real.exp 1 else 70 * Real.exp 3) hazySmoke fun _ => 1 := by
  have h0 : ∀ i, 50 * Real.exp 1 * Real.exp (-lineDepth (0, 0, 0) (examplePos 0) 0 3 (hazySmoke i)) =
      50 * Real.exp (-lineDepth (0, 0, 0) (examplePos 0) 0 3 (exampleSmoke i)) := by
    intro i
    rw [example_depth0, example_depth0, mul_assoc, ← Real.exp_add]
    congr 2
    unfold hazySmoke
    ring
  have h1 : ∀ i, 70 * Real.exp 3 * Real.exp (-lineDepth (0, 0, 0) (examplePos 1) 0 3 (hazySmoke i)) =
      70 * Real.exp (-lineDepth (0, 0, 0) (examplePos 1) 0 3 (exampleSmoke i)) := by
    intro i
    rw [example_depth1, example_depth1, mul_assoc, ← Real.exp_add]
    congr 2
    unfold hazySmoke
    ring
  exact {
    ids := rfl
    ascending := by simp
    nonempty := by simp
    positions := by
      intro l hl
      simp only [List.mem_cons, List.not_mem_nil, or_false] at hl
      rcases hl with rfl | rfl <;> simp [exampleAnalysis, examplePos]
    layers := by simp [exampleAnalysis]
    domain := by simp [exampleAnalysis]
    rays := by
      intro l hl
      simp only [List.mem_cons, List.not_mem_nil, or_false] at hl
      rcases hl with rfl | rfl
      · exact ⟨by simp [exampleAnalysis, examplePos], by simp [exampleAnalysis], by simp [exampleAnalysis, examplePos],
          by simp [exampleAnalysis]⟩
      · exact ⟨by simp [exampleAnalysis, examplePos], by simp [exampleAnalysis], by simp [exampleAnalysis, examplePos],
          by simp [exampleAnalysis]⟩
    emits := by
      intro l _
      split <;> positivity
    nodup := by
      intro i _ _
      simp [exampleFiles]
    measured := by
      intro i _ _ l x
      show (l, 0, x) ∈ exampleFiles i ↔ l ∈ [0, 1] ∧ x = (if l = 0 then 50 * Real.exp 1 else 70 * Real.exp 3) *
        Real.exp (-lineDepth (0, 0, 0) (examplePos l) 0 3 (hazySmoke i))
      unfold exampleFiles
      simp only [List.mem_cons, Prod.mk.injEq, List.not_mem_nil, or_false]
      constructor
      · rintro (⟨rfl, _, rfl⟩ | ⟨_, h, _⟩ | ⟨rfl, _, rfl⟩)
        · exact ⟨.inr rfl, (h1 i).symm⟩
        · cases h
        · exact ⟨.inl rfl, (h0 i).symm⟩
      · rintro ⟨rfl | rfl, rfl⟩
        · exact .inr (.inr ⟨rfl, trivial, h0 i⟩)
        · exact .inl ⟨rfl, trivial, h1 i⟩
    hazy := by
      intro i h1 _ h2
      simp only [exampleAnalysis, RefChoice.selects, decide_eq_true_eq] at h2
      have : i = 1 := by omega
      subst this
      funext j
      show exampleSmoke 1 j + 1 = 1
      simp [exampleSmoke]
    reference := ⟨1, le_refl _, by norm_num, by simp [exampleAnalysis, RefChoice.selects]⟩ }

theorem hazy_example_result (r : Except PyErr (List (Fin 3 → ℝ))) :
    exampleAnalysis.Result exampleFiles 2 r ↔ r = .ok ((firstImgs 2).map fun i k => max (hazySmoke i k - 1) 0) := by
  refine C175_excess exampleAnalysis [0, 1] examplePos exampleFiles 2 _ hazySmoke _ hazy_example (le_refl _)
    (by simp [exampleAnalysis]) ?_ ?_ r
  · intro i h1 h2
    have : i = 1 ∨ i = 2 := by omega
    rcases this with rfl | rfl
    · left
      intro k
      show exampleSmoke 1 k + 1 ≤ 1
      simp [exampleSmoke]
    · right
      have hv : ∀ k : Fin 3, hazySmoke 2 k = 2 + ((k : ℕ) : ℝ) := by
        intro k
        unfold hazySmoke exampleSmoke
        norm_num
        ring
      refine ⟨?_, ⟨1, 1, ?_⟩, ?_⟩
      · intro k
        refine le_of_le_of_eq ?_ (hv k).symm
        have : (0 : ℝ) ≤ ((k : ℕ) : ℝ) := Nat.cast_nonneg _
        linarith
      · intro k
        refine (congrArg (· - 1) (hv k)).trans ?_
        ring
      · intro l hl
        simp only [List.mem_cons, List.not_mem_nil, or_false] at hl
        rcases hl with rfl | rfl
        · refine (example_depth0 _).trans_le ?_
          refine le_trans ?_ (add_le_add_left (example_depth0 _).ge 23)
          rw [hv]
          norm_num
        · refine (example_depth1 _).trans_le ?_
          refine le_trans ?_ (add_le_add_left (example_depth1 _).ge 23)
          rw [hv, hv, hv]
          norm_num
  · intro σ τ hσ hτ h
    exact example_determined σ τ hσ hτ (h 0 (by simp)) (h 1 (by simp))

/-- The smoke of the images is found even if the reference images were taken through haze. -/
def HazeIsHarmless : Prop := ∀ (a : ArrayAnalysis) (leds : List ℕ) (pos : ℕ → P3) (files : ℕ → List (ℕ × ℕ × ℝ)) (N : ℕ)
  (emit : ℕ → ℝ) (smoke : ℕ → Fin a.layers → ℝ) (haze : Fin a.layers → ℝ), HazyExperiment a leds pos files N emit smoke haze →
  (∀ i k, 0 ≤ smoke i k) → ∀ cs, a.Result files N (.ok cs) → cs = (firstImgs N).map smoke

/-- **C175 refuted**: haze of 1 per metre during the reference images is missing in all coefficients. -/
theorem C175_false : ¬ HazeIsHarmless := by
  intro h
  have hnn : ∀ i k, 0 ≤ hazySmoke i k := by
    intro i k
    unfold hazySmoke exampleSmoke
    split
    · norm_num
    · positivity
  have := h exampleAnalysis [0, 1] examplePos exampleFiles 2 _ hazySmoke _ hazy_example hnn _ ((hazy_example_result _).2 rfl)
  have h1 : (fun k : Fin 3 => max (hazySmoke 1 k - 1) 0) = hazySmoke 1 := by
    have := congrArg List.head? this
    exact Option.some.inj this
  have h2 := congrFun h1 0
  simp [hazySmoke, exampleSmoke] at h2

/-- A case: the images of the example would show 1 per metre and 2, 3, 4 per metre; found are 0 and 1, 2, 3. -/
example : exampleAnalysis.Result exampleFiles 2 (.ok [fun _ => 0, fun k : Fin 3 => 1 + ((k : ℕ) : ℝ)]) ∧
    hazySmoke 1 = (fun _ => 1) ∧ hazySmoke 2 = fun k : Fin 3 => 2 + ((k : ℕ) : ℝ) := by
  have h1 : hazySmoke 1 = fun _ => 1 := by funext k; simp [hazySmoke, exampleSmoke]
  have h2 : hazySmoke 2 = fun k : Fin 3 => 2 + ((k : ℕ) : ℝ) := by
    funext k
    unfold hazySmoke exampleSmoke
    norm_num
    ring
  refine ⟨(hazy_example_result _).2 ?_, h1, h2⟩
  congr 1
  have : firstImgs 2 = [1, 2] := rfl
  rw [this]
  simp only [List.map_cons, List.map_nil, h1, h2]
  congr 1
  · funext k; norm_num
  · congr 1
    funext k
    have : (0 : ℝ) ≤ ((k : ℕ) : ℝ) := Nat.cast_nonneg _
    rw [max_eq_left (by linarith)]
    ring

end Ledsa
