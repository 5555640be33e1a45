import Verif.Model.Extinction
import Verif.Py.Text
import Verif.Props.Coordinates
import Verif.Props.Solver
import Mathlib.Tactic.FieldSimp
import Mathlib.Tactic.NormNum
/-
Properties C45 - C48: serial and parallel calculation, normalisation, the warning about reference images and repeated
calculation.
-/
namespace Ledsa

variable {K : Type}

/-! ### Complete tables -/

/-- Every image of `imgs` has the value `v img led` for every LED of `leds`, in this order. -/
def tableOf (imgs leds : List Nat) (v : Nat → Nat → K) : ImgData K :=
  imgs.flatMap fun i => leds.map fun l => (i, l, v i l)

theorem insertKey_mem (k : Nat) (l : List Nat) (x : Nat) : x ∈ insertKey k l ↔ x = k ∨ x ∈ l := by
  induction l with
  | nil => simp [insertKey]
  | cons a t ih =>
    unfold insertKey
    split
    · simp
    · split
      · rename_i h; subst h; simp
      · simp only [List.mem_cons, ih]; tauto

theorem insertKey_sorted (k : Nat) (l : List Nat) (h : l.Pairwise (· < ·)) : (insertKey k l).Pairwise (· < ·) := by
  induction l with
  | nil => simp [insertKey]
  | cons a t ih =>
    rw [List.pairwise_cons] at h
    unfold insertKey
    split
    · rename_i hk
      rw [List.pairwise_cons, List.pairwise_cons]
      refine ⟨?_, h⟩
      intro x hx
      rcases List.mem_cons.1 hx with rfl | hx
      · exact hk
      · exact hk.trans (h.1 x hx)
    · split
      · rw [List.pairwise_cons]; exact h
      · rename_i h1 h2
        rw [List.pairwise_cons]
        refine ⟨fun x hx => ?_, ih h.2⟩
        rcases (insertKey_mem k t x).1 hx with rfl | hx
        · omega
        · exact h.1 x hx

theorem groupKeys_mem (l : List Nat) (x : Nat) : x ∈ groupKeys l ↔ x ∈ l := by
  unfold groupKeys
  induction l with
  | nil => simp
  | cons a t ih => rw [List.foldr_cons, insertKey_mem, ih, List.mem_cons]

theorem groupKeys_sorted (l : List Nat) : (groupKeys l).Pairwise (· < ·) := by
  unfold groupKeys
  induction l with
  | nil => simp
  | cons a t ih => exact insertKey_sorted _ _ ih

theorem groupKeys_eq {l k : List Nat} (hk : k.Pairwise (· < ·)) (hm : ∀ x, x ∈ l ↔ x ∈ k) : groupKeys l = k :=
  ascending_unique (groupKeys_sorted l) hk fun x => (groupKeys_mem l x).trans (hm x)

theorem imgKeys_tableOf {imgs leds : List Nat} (v : Nat → Nat → K) (hi : imgs.Pairwise (· < ·)) (hl : leds ≠ []) :
    groupKeys ((tableOf imgs leds v).map (·.1)) = imgs := by
  apply groupKeys_eq hi
  intro x
  simp only [tableOf, List.mem_map, List.mem_flatMap]
  constructor
  · rintro ⟨r, ⟨i, hi, l, hl, rfl⟩, rfl⟩; exact hi
  · intro hx
    obtain ⟨l, hl⟩ := List.exists_mem_of_ne_nil _ hl
    exact ⟨(x, l, v x l), ⟨x, hx, l, hl, rfl⟩, rfl⟩

theorem ledKeys_tableOf {imgs leds : List Nat} (v : Nat → Nat → K) (hi : imgs ≠ []) (hl : leds.Pairwise (· < ·)) :
    groupKeys ((tableOf imgs leds v).map (·.2.1)) = leds := by
  apply groupKeys_eq hl
  intro x
  simp only [tableOf, List.mem_map, List.mem_flatMap]
  constructor
  · rintro ⟨r, ⟨i, hi, l, hl, rfl⟩, rfl⟩; exact hl
  · intro hx
    obtain ⟨i, hi⟩ := List.exists_mem_of_ne_nil _ hi
    exact ⟨(i, x, v i x), ⟨i, hi, x, hx, rfl⟩, rfl⟩

theorem filter_eq_nodup {l : List Nat} (h : l.Nodup) {a : Nat} (ha : a ∈ l) : l.filter (fun x => x = a) = [a] := by
  induction l with
  | nil => cases ha
  | cons b t ih =>
    rw [List.nodup_cons] at h
    by_cases hb : b = a
    · subst hb
      rw [List.filter_cons_of_pos (by simp)]
      congr 1
      rw [List.filter_eq_nil_iff]
      intro x hx
      simp only [decide_eq_true_eq]
      rintro rfl
      exact h.1 hx
    · rw [List.filter_cons_of_neg (by simpa using hb)]
      exact ih h.2 ((List.mem_cons.1 ha).resolve_left (Ne.symm hb))

theorem imgValues_tableOf {imgs leds : List Nat} (v : Nat → Nat → K) (hi : imgs.Nodup) {i : Nat} (hm : i ∈ imgs) :
    imgValues (tableOf imgs leds v) i = leds.map (v i) := by
  have h : (tableOf imgs leds v).filter (fun r => r.1 = i) = tableOf (imgs.filter (fun x => x = i)) leds v := by
    unfold tableOf
    induction imgs with
    | nil => rfl
    | cons a t ih =>
      rw [List.nodup_cons] at hi
      rw [List.flatMap_cons, List.filter_append]
      by_cases ha : a = i
      · subst ha
        rw [List.filter_cons_of_pos (by simp), List.flatMap_cons]
        have h1 : ((leds.map fun l => (a, l, v a l)).filter fun r => r.1 = a) = leds.map fun l => (a, l, v a l) := by
          rw [List.filter_eq_self]
          intro r hr
          rw [List.mem_map] at hr
          obtain ⟨l, _, rfl⟩ := hr
          simp
        have h2 : (t.flatMap fun i => leds.map fun l => (i, l, v i l)).filter (fun r => r.1 = a) = [] := by
          rw [List.filter_eq_nil_iff]
          intro r hr
          rw [List.mem_flatMap] at hr
          obtain ⟨j, hj, hr⟩ := hr
          rw [List.mem_map] at hr
          obtain ⟨l, _, rfl⟩ := hr
          simp only [decide_eq_true_eq]
          rintro rfl
          exact hi.1 hj
        have h3 : t.filter (fun x => x = a) = [] := by
          rw [List.filter_eq_nil_iff]
          intro x hx
          simp only [decide_eq_true_eq]
          rintro rfl
          exact hi.1 hx
        rw [h1, h2, h3]
        rfl
      · rw [List.filter_cons_of_neg (by simpa using ha), ih hi.2 ((List.mem_cons.1 hm).resolve_left (Ne.symm ha))]
        have h1 : ((leds.map fun l => (a, l, v a l)).filter fun r => r.1 = i) = [] := by
          rw [List.filter_eq_nil_iff]
          intro r hr
          rw [List.mem_map] at hr
          obtain ⟨l, _, rfl⟩ := hr
          simpa using ha
        rw [h1]; rfl
  unfold imgValues
  rw [h, filter_eq_nodup hi hm]
  simp [tableOf, Function.comp_def]

theorem ledValues_tableOf {imgs leds : List Nat} (v : Nat → Nat → K) (hl : leds.Nodup) {l : Nat} (hm : l ∈ leds) :
    ledValues (tableOf imgs leds v) l = imgs.map fun i => v i l := by
  unfold ledValues tableOf
  induction imgs with
  | nil => rfl
  | cons a t ih =>
    rw [List.flatMap_cons, List.filter_append, List.map_append, ih, List.map_cons]
    have h1 : ((leds.map fun l => (a, l, v a l)).filter fun r => r.2.1 = l) = [(a, l, v a l)] := by
      rw [List.filter_map]
      have : ((fun r : Nat × Nat × K => decide (r.2.1 = l)) ∘ fun l => (a, l, v a l)) = fun x => decide (x = l) := rfl
      rw [this, filter_eq_nodup hl hm]
      rfl
    rw [h1]; rfl

theorem refData_tableOf (c : RefChoice) (imgs leds : List Nat) (v : Nat → Nat → K) :
    refData c (tableOf imgs leds v) = tableOf (imgs.filter c.selects) leds v := by
  unfold refData tableOf
  induction imgs with
  | nil => rfl
  | cons a t ih =>
    rw [List.flatMap_cons, List.filter_append, ih]
    by_cases ha : c.selects a = true
    · rw [List.filter_cons_of_pos ha, List.flatMap_cons]
      congr 1
      rw [List.filter_eq_self]
      intro r hr
      rw [List.mem_map] at hr
      obtain ⟨l, _, rfl⟩ := hr
      exact ha
    · rw [List.filter_cons_of_neg ha]
      have : ((leds.map fun l => (a, l, v a l)).filter fun r => c.selects r.1) = [] := by
        rw [List.filter_eq_nil_iff]
        intro r hr
        rw [List.mem_map] at hr
        obtain ⟨l, _, rfl⟩ := hr
        exact ha
      rw [this]; rfl

/-! ### C46 -/

section Field
variable [Field K]

/-- Mean of the values of LED `l` over the images `js`. -/
def meanOver (js : List Nat) (v : Nat → Nat → K) (l : Nat) : K := (js.map fun j => v j l).sum / js.length

theorem refIntensities_tableOf (c : RefChoice) {imgs leds : List Nat} (v : Nat → Nat → K) (hl : leds.Pairwise (· < ·))
    (hr : imgs.filter c.selects ≠ []) :
    refIntensities c (tableOf imgs leds v) = leds.map (meanOver (imgs.filter c.selects) v) := by
  unfold refIntensities
  have h : ∀ l ∈ leds, refMean c (tableOf imgs leds v) l = meanOver (imgs.filter c.selects) v l := by
    intro l hm
    unfold refMean
    rw [refData_tableOf, ledValues_tableOf v (hl.imp fun h => Nat.ne_of_lt h) hm]
    simp [meanOf, meanOver]
  rw [refData_tableOf, ledKeys_tableOf v hr hl]
  exact List.map_congr_left h

theorem zipWith_map_map {α : Type} (f g : α → K) (l : List α) :
    (l.map f).zipWith (· / ·) (l.map g) = l.map fun x => f x / g x := by
  induction l with
  | nil => rfl
  | cons a t ih => simp [ih]

/-- The relative intensities of a complete table: every value divided by the mean of its own LED over the reference
images. -/
theorem C46_value (c : RefChoice) (imgs leds : List Nat) (v : Nat → Nat → K) (hi : imgs.Pairwise (· < ·))
    (hl : leds.Pairwise (· < ·)) (hne : leds ≠ []) (hr : ∃ i ∈ imgs, c.selects i = true) :
    serialRel (tableOf imgs leds v) (refIntensities c (tableOf imgs leds v)) =
      .ok (imgs.map fun i => leds.map fun l => v i l / meanOver (imgs.filter c.selects) v l) := by
  have hr' : imgs.filter c.selects ≠ [] := by
    obtain ⟨i, h1, h2⟩ := hr
    exact List.ne_nil_of_mem (List.mem_filter.2 ⟨h1, h2⟩)
  unfold serialRel
  rw [imgKeys_tableOf v hi hne, refIntensities_tableOf c v hl hr']
  apply mapM_ok
  intro i hm
  rw [imgValues_tableOf v (hi.imp fun h => Nat.ne_of_lt h) hm]
  unfold npDivide
  rw [if_pos (by simp), zipWith_map_map]

/-- **C46.** Over the reference images the relative intensities of each LED (with non-zero mean) average to 1. -/
theorem C46_mean_one [CharZero K] (c : RefChoice) (imgs leds : List Nat) (v : Nat → Nat → K)
    (hi : imgs.Pairwise (· < ·)) (hl : leds.Pairwise (· < ·)) (hne : leds ≠ []) (hr : ∃ i ∈ imgs, c.selects i = true) :
    ∃ rel : Nat → Nat → K,
      serialRel (tableOf imgs leds v) (refIntensities c (tableOf imgs leds v)) =
        .ok (imgs.map fun i => leds.map (rel i)) ∧
      ∀ l ∈ leds, meanOver (imgs.filter c.selects) v l ≠ 0 → meanOver (imgs.filter c.selects) rel l = 1 := by
  refine ⟨_, C46_value c imgs leds v hi hl hne hr, ?_⟩
  intro l _ hm
  have h : ∀ (js : List Nat) (m : K), (js.map fun j => v j l / m).sum = (js.map fun j => v j l).sum / m := by
    intro js m
    induction js with
    | nil => simp
    | cons a t ih => simp [ih, add_div]
  have e : meanOver (imgs.filter c.selects) (fun i l => v i l / meanOver (imgs.filter c.selects) v l) l =
      meanOver (imgs.filter c.selects) v l / meanOver (imgs.filter c.selects) v l := by
    conv_lhs => unfold meanOver
    rw [h]
    rw [div_right_comm]
    rfl
  rw [e, div_self hm]

/-- **C46.** Multiplying all values of an LED by a non-zero factor (exposure, gain, a dirty lens) changes nothing. -/
theorem C46_scaling (c : RefChoice) (imgs leds : List Nat) (v : Nat → Nat → K) (s : Nat → K) (hs : ∀ l, s l ≠ 0)
    (hi : imgs.Pairwise (· < ·)) (hl : leds.Pairwise (· < ·)) (hne : leds ≠ []) (hr : ∃ i ∈ imgs, c.selects i = true) :
    serialRel (tableOf imgs leds fun i l => s l * v i l)
        (refIntensities c (tableOf imgs leds fun i l => s l * v i l)) =
      serialRel (tableOf imgs leds v) (refIntensities c (tableOf imgs leds v)) := by
  rw [C46_value c imgs leds _ hi hl hne hr, C46_value c imgs leds _ hi hl hne hr]
  congr 1
  apply List.map_congr_left
  intro i _
  apply List.map_congr_left
  intro l _
  have h : ∀ js : List Nat, meanOver js (fun i l => s l * v i l) l = s l * meanOver js v l := by
    intro js
    unfold meanOver
    have : (js.map fun j => s l * v j l).sum = s l * (js.map fun j => v j l).sum := by
      induction js with
      | nil => simp
      | cons a t ih => simp [ih, mul_add]
    rw [this, mul_div_assoc]
  rw [h, mul_div_mul_left _ _ (hs l)]

/-- **C46.** Without any reference image among the analysed ones the calculation fails (two or more LEDs). -/
theorem C46_no_reference_fails (c : RefChoice) (imgs leds : List Nat) (v : Nat → Nat → K) (hi : imgs.Pairwise (· < ·))
    (hne : 2 ≤ leds.length) (him : imgs ≠ []) (hr : ∀ i ∈ imgs, c.selects i = false) :
    serialRel (tableOf imgs leds v) (refIntensities c (tableOf imgs leds v)) = .error .valueError := by
  have hf : imgs.filter c.selects = [] := by
    rw [List.filter_eq_nil_iff]
    intro i h; simp [hr i h]
  have hre : refIntensities c (tableOf imgs leds v) = [] := by
    unfold refIntensities
    rw [refData_tableOf, hf]
    rfl
  have hl : leds ≠ [] := by rintro rfl; simp at hne
  unfold serialRel
  rw [imgKeys_tableOf v hi hl, hre]
  cases imgs with
  | nil => exact absurd rfl him
  | cons a t =>
    rw [List.mapM_cons, imgValues_tableOf v (hi.imp fun h => Nat.ne_of_lt h) (by simp)]
    have : npDivide (leds.map (v a)) [] = .error .valueError := by
      unfold npDivide
      rw [if_neg (by simp; exact hl)]
      match leds, hne with
      | x :: y :: t, _ => rfl
    rw [this]
    rfl

/-! ### C45 -/

theorem mapM_congr_except {α β ε : Type} {f g : α → Except ε β} {l : List α} (h : ∀ x ∈ l, f x = g x) :
    l.mapM f = l.mapM g := by
  induction l with
  | nil => rfl
  | cons a t ih =>
    rw [List.mapM_cons, List.mapM_cons, h a (by simp), ih fun x hx => h x (by simp [hx])]

theorem mapM_map_except {α β γ ε : Type} {f : β → Except ε γ} {g : α → β} {l : List α} :
    (l.map g).mapM f = l.mapM fun x => f (g x) := by
  induction l with
  | nil => rfl
  | cons a t ih => rw [List.map_cons, List.mapM_cons, List.mapM_cons, ih]

/-- The ids of `n` images. -/
def firstImgs (n : Nat) : List Nat := (List.range n).map (· + 1)

theorem firstImgs_sorted (n : Nat) : (firstImgs n).Pairwise (· < ·) := by
  unfold firstImgs
  rw [List.pairwise_map]
  exact List.pairwise_lt_range.imp fun h => by omega

/-- **C46.** With a number of reference images the references of images `1..n` are the first ones. -/
theorem C46_first_images (n k : Nat) : (firstImgs n).filter (RefChoice.first k).selects = firstImgs (min k n) := by
  induction n with
  | zero => simp [firstImgs]
  | succ n ih =>
    have e : ∀ m, firstImgs (m + 1) = firstImgs m ++ [m + 1] := by intro m; simp [firstImgs, List.range_succ]
    rw [e, List.filter_append, ih]
    rcases Nat.lt_or_ge n k with h | h
    · rw [show min k n = n by omega, show min k (n + 1) = n + 1 by omega, e]
      simp [RefChoice.selects]; omega
    · rw [show min k n = k by omega, show min k (n + 1) = k by omega]
      simp [RefChoice.selects]; omega

/-- **C46.** With a list of reference images exactly the images of the list are used. -/
theorem C46_listed_images (imgs l : List Nat) (i : Nat) :
    i ∈ imgs.filter (RefChoice.ids l).selects ↔ i ∈ imgs ∧ i ∈ l := by
  simp [RefChoice.selects]

example : (firstImgs 5).filter (RefChoice.ids [2, 4, 9]).selects = [2, 4] := by decide

omit [Field K] in
theorem toArray_tableOf (n : Nat) (hn : 0 < n) (leds : List Nat) (v : Nat → Nat → K) (hl : leds.Pairwise (· < ·))
    (hne : leds ≠ []) : toArray (tableOf (firstImgs n) leds v) = .ok ((firstImgs n).map fun i => leds.map (v i)) := by
  have him : firstImgs n ≠ [] := by
    intro h
    have := congrArg List.length h
    simp [firstImgs] at this
    omega
  have hnd := (firstImgs_sorted n).imp fun {a b} h => Nat.ne_of_lt h
  unfold toArray
  rw [imgKeys_tableOf v (firstImgs_sorted n) hne, ledKeys_tableOf v him hl]
  obtain ⟨i0, is, hi⟩ := List.exists_cons_of_ne_nil him
  obtain ⟨l0, ls, hls⟩ := List.exists_cons_of_ne_nil hne
  have hi0 : i0 ∈ firstImgs n := by rw [hi]; simp
  have hl0 : l0 ∈ leds := by rw [hls]; simp
  have e1 : (ledValues (tableOf (firstImgs n) leds v) l0).length = n := by
    rw [ledValues_tableOf v (hl.imp fun h => Nat.ne_of_lt h) hl0]; simp [firstImgs]
  have e2 : (imgValues (tableOf (firstImgs n) leds v) i0).length = leds.length := by
    rw [imgValues_tableOf v hnd hi0]; simp
  have key : ((List.range (ledValues (tableOf (firstImgs n) leds v) l0).length).mapM fun i =>
      arrayRow (tableOf (firstImgs n) leds v) (imgValues (tableOf (firstImgs n) leds v) i0).length i) =
      .ok ((firstImgs n).map fun i => leds.map (v i)) := by
    rw [e1, e2]
    have : (firstImgs n).map (fun i => leds.map (v i)) = (List.range n).map fun i => leds.map (v (i + 1)) := by
      unfold firstImgs; rw [List.map_map]; rfl
    rw [this]
    apply mapM_ok
    intro i hi
    have hm : i + 1 ∈ firstImgs n := List.mem_map.2 ⟨i, hi, rfl⟩
    unfold arrayRow
    rw [imgValues_tableOf v hnd hm]
    cases leds with
    | nil => exact absurd rfl hne
    | cons a t =>
      cases t with
      | nil => simp
      | cons b t => simp
  rw [hi, hls] at key ⊢
  exact key

/-- **C45.** Both ways of calculation work with the same relative intensities, if all images `1..n` have values of the
same LEDs. -/
theorem C45_same_intensities (n : Nat) (hn : 0 < n) (leds : List Nat) (v : Nat → Nat → K) (hl : leds.Pairwise (· < ·))
    (hne : leds ≠ []) (ref : List K) :
    poolRel (tableOf (firstImgs n) leds v) ref = serialRel (tableOf (firstImgs n) leds v) ref := by
  have hnd := (firstImgs_sorted n).imp fun {a b} h => Nat.ne_of_lt h
  have h1 := toArray_tableOf n hn leds v hl hne
  unfold poolRel serialRel
  rw [h1, imgKeys_tableOf v (firstImgs_sorted n) hne]
  simp only
  rw [mapM_map_except]
  apply mapM_congr_except
  intro i hi
  rw [imgValues_tableOf v hnd hi]

end Field

theorem runSerial_append {C : Type} (solve : ImgSolver K C) (a b : List (List K)) (s : List C) :
    runSerial solve (a ++ b) s = runSerial solve b (runSerial solve a s) := by
  simp [runSerial]

/-- **C45.** With the linear solver one core and many cores give the same coefficients. -/
theorem C45_linear {C : Type} (f : List K → C) (rels : List (List K)) :
    runSerial (linearSolver f) rels [] = runPool (linearSolver f) rels [] := by
  have h : ∀ (rels : List (List K)) (s : List C), runSerial (linearSolver f) rels s = s ++ rels.map f := by
    intro rels
    induction rels with
    | nil => intro s; simp [runSerial]
    | cons r t ih =>
      intro s
      have : runSerial (linearSolver f) (r :: t) s = runSerial (linearSolver f) t (s ++ [f r]) := rfl
      rw [this, ih]; simp
  rw [h]; rfl

/-- **C45.** With the nonlinear solver the results agree for all series exactly if starting from the solution of any first
image leads to the same result as starting from zeros. -/
theorem C45_nonlinear_iff {C : Type} (minimise : C → List K → C) (zeros : C) :
    (∀ rels, runSerial (nonlinearSolver minimise zeros) rels [] = runPool (nonlinearSolver minimise zeros) rels []) ↔
      ∀ r₀ r, minimise (minimise zeros r₀) r = minimise zeros r := by
  constructor
  · intro h r₀ r
    have := h [r₀, r]
    simpa [runSerial, runPool, nonlinearSolver] using this
  · intro h rels
    have key : ∀ (rels : List (List K)) (s : List C), (s = [] ∨ ∃ t r₀, s = t ++ [minimise zeros r₀]) →
        runSerial (nonlinearSolver minimise zeros) rels s = s ++ rels.map (minimise zeros) := by
      intro rels
      induction rels with
      | nil => intro s _; simp [runSerial]
      | cons r t ih =>
        intro s hs
        have e : nonlinearSolver minimise zeros s r = minimise zeros r := by
          rcases hs with rfl | ⟨t, r₀, rfl⟩
          · rfl
          · simp [nonlinearSolver, h]
        have : runSerial (nonlinearSolver minimise zeros) (r :: t) s =
            runSerial (nonlinearSolver minimise zeros) t (s ++ [nonlinearSolver minimise zeros s r]) := rfl
        rw [this, e, ih _ (Or.inr ⟨s, r, rfl⟩)]
        simp
    rw [key rels [] (Or.inl rfl)]
    rfl

/-- The cost of a single coefficient for one LED seen over one metre. -/
noncomputable def cost1 (rel : List ℝ) (σ : ℝ) : ℝ :=
  costFunction (m := 1) (n := 1) (fun _ _ => 1) 1 0 (fun _ => rel.headD 0) (fun _ => σ)

theorem cost1_eq (r σ : ℝ) : cost1 [r] σ = |Real.exp (-σ) - r| := by
  unfold cost1 costFunction rmse curvature preference
  simp only [C42_beer_lambert]
  simp [Real.sqrt_sq_eq_abs]

open Classical in
/-- A minimiser that tries one candidate and keeps its starting point if the candidate is not better. -/
noncomputable def tryOne (start : ℝ) (rel : List ℝ) : ℝ := if cost1 rel 1 < cost1 rel start then 1 else start

/-- **C45 refuted** for the nonlinear solver: with a minimiser that never increases the cost and stays within the bounds,
the coefficients still depend on whether one or several cores are used. -/
theorem C45_nonlinear_false : ∃ minimise : ℝ → List ℝ → ℝ,
    (∀ s r, cost1 r (minimise s r) ≤ cost1 r s) ∧ (∀ s r, 0 ≤ s → s ≤ 10 → 0 ≤ minimise s r ∧ minimise s r ≤ 10) ∧
    ∃ rels, runSerial (nonlinearSolver minimise 0) rels [] ≠ runPool (nonlinearSolver minimise 0) rels [] := by
  refine ⟨tryOne, ?_, ?_, ?_⟩
  · intro s r
    unfold tryOne
    split
    · rename_i h; exact h.le
    · exact le_refl _
  · intro s r h0 h1
    unfold tryOne
    split
    · norm_num
    · exact ⟨h0, h1⟩
  · by_contra hne
    push Not at hne
    have h := (C45_nonlinear_iff tryOne 0).1 hne [Real.exp (-1)] [(1 + Real.exp (-1)) / 2]
    have he : Real.exp (-1) < 1 := by rw [← Real.exp_zero]; exact Real.exp_lt_exp.2 (by norm_num)
    have h1 : tryOne 0 [Real.exp (-1)] = 1 := by
      unfold tryOne
      rw [if_pos]
      rw [cost1_eq, cost1_eq]
      simp only [sub_self, abs_zero, neg_zero, Real.exp_zero]
      exact abs_pos.2 (by linarith)
    have h2 : cost1 [(1 + Real.exp (-1)) / 2] 1 = cost1 [(1 + Real.exp (-1)) / 2] 0 := by
      rw [cost1_eq, cost1_eq, neg_zero, Real.exp_zero]
      have e1 : Real.exp (-1) - (1 + Real.exp (-1)) / 2 = -((1 - Real.exp (-1)) / 2) := by ring
      have e2 : (1 : ℝ) - (1 + Real.exp (-1)) / 2 = (1 - Real.exp (-1)) / 2 := by ring
      rw [e1, e2, abs_neg]
    have h3 : tryOne 1 [(1 + Real.exp (-1)) / 2] = 1 := by unfold tryOne; split <;> rfl
    have h4 : tryOne 0 [(1 + Real.exp (-1)) / 2] = 0 := by
      unfold tryOne
      rw [if_neg (by rw [h2]; exact lt_irrefl _)]
    rw [h1, h3, h4] at h
    norm_num at h

/-! ### C48 -/

/-- **C48.** With several cores and the linear solver, repeated calls give the same coefficients, one row per image. -/
theorem C48_parallel_partial {C : Type} (f : List K → C) (rels : List (List K)) (stored : List C) :
    runPool (linearSolver f) rels stored = rels.map f ∧
    (runPool (linearSolver f) rels stored).length = rels.length := by
  refine ⟨rfl, by simp [runPool]⟩

/-- **C48.** With several cores there is always one row per image, whatever was stored. -/
theorem C48_parallel_rows {C : Type} (solve : ImgSolver K C) (rels : List (List K)) (stored : List C) :
    (runPool solve rels stored).length = rels.length := by simp [runPool]

/-- `k` calls of the serial calculation. -/
def runSerialTimes {C : Type} (solve : ImgSolver K C) (rels : List (List K)) : Nat → List C
  | 0 => []
  | k + 1 => runSerial solve rels (runSerialTimes solve rels k)

/-- **C48 refuted** for one core: after `k` calls there are `k` rows per image. -/
theorem C48_serial_rows {C : Type} (solve : ImgSolver K C) (rels : List (List K)) (k : Nat) :
    (runSerialTimes solve rels k).length = k * rels.length := by
  have h : ∀ (rels : List (List K)) (s : List C), (runSerial solve rels s).length = s.length + rels.length := by
    intro rels
    induction rels with
    | nil => intro s; rfl
    | cons r t ih =>
      intro s
      have : runSerial solve (r :: t) s = runSerial solve t (s ++ [solve s r]) := rfl
      rw [this, ih]; simp; omega
  induction k with
  | zero => simp [runSerialTimes]
  | succ k ih => rw [runSerialTimes, h, ih]; ring

/-- **C48 refuted**: after a second serial call the coefficients cannot be saved. -/
theorem C48_false {T C : Type} (solve : ImgSolver K C) (rels : List (List K)) (hr : rels ≠ []) (times : List T)
    (ht : times.length = rels.length) (k : Nat) (hk : 2 ≤ k) :
    columnStack times (runSerialTimes solve rels k) = .error .valueError := by
  have hp : 0 < rels.length := List.length_pos_of_ne_nil hr
  unfold columnStack
  rw [if_neg]
  rw [C48_serial_rows, ht]
  intro h
  have : 2 * rels.length ≤ k * rels.length := Nat.mul_le_mul_right _ hk
  omega

/-- **C48.** With the nonlinear solver a second parallel call starts from the last coefficients of the first one; it
gives the same coefficients exactly if that start makes no difference. -/
theorem C48_parallel_nonlinear_iff {C : Type} (minimise : C → List K → C) (zeros : C) (rels : List (List K))
    (last : List K) (hlast : rels.getLast? = some last) :
    runPool (nonlinearSolver minimise zeros) rels (runPool (nonlinearSolver minimise zeros) rels []) =
      runPool (nonlinearSolver minimise zeros) rels [] ↔
    ∀ r ∈ rels, minimise (minimise zeros last) r = minimise zeros r := by
  have h : (runPool (nonlinearSolver minimise zeros) rels []).getLast? = some (minimise zeros last) := by
    unfold runPool
    rw [List.getLast?_map, hlast]
    rfl
  generalize hs : runPool (nonlinearSolver minimise zeros) rels [] = s at h
  unfold runPool nonlinearSolver
  rw [h, ← hs]
  simp [runPool, nonlinearSolver]

/-! ### C47 -/

section Ordered
variable [Field K] [LinearOrder K] [IsStrictOrderedRing K]

theorem exceeds_iff (tol v ref : K) : exceeds tol v ref = true ↔ tol * |ref| < |v - ref| := by
  unfold exceeds
  split
  · rename_i h; subst h; simp
  · rename_i h
    rw [decide_eq_true_eq, gt_iff_lt, lt_div_iff₀ (abs_pos.2 h)]

/-- **C47.** The warning names exactly the pairs of reference image and LED whose value deviates from the mean of the LED
by more than the tolerance. -/
theorem C47_named_pairs (tol : K) (c : RefChoice) (t : ImgData K) (i l : Nat) :
    (i, l) ∈ hits tol c t ↔
      ∃ x, (i, l, x) ∈ t ∧ c.selects i = true ∧ tol * |refMean c t l| < |x - refMean c t l| := by
  unfold hits
  simp only [List.mem_map, List.mem_filter, refData, exceeds_iff]
  constructor
  · rintro ⟨⟨i', l', x⟩, ⟨⟨h1, h2⟩, h3⟩, h4⟩
    cases h4
    exact ⟨x, h1, h2, h3⟩
  · rintro ⟨x, h1, h2, h3⟩
    exact ⟨(i, l, x), ⟨⟨h1, h2⟩, h3⟩, rfl⟩

/-- **C47.** A warning is issued exactly if there is such a pair. -/
theorem C47_warned_iff (tol : K) (c : RefChoice) (t : ImgData K) :
    warned tol c t = true ↔
      ∃ i l x, (i, l, x) ∈ t ∧ c.selects i = true ∧ tol * |refMean c t l| < |x - refMean c t l| := by
  unfold warned
  rw [decide_eq_true_eq]
  constructor
  · intro h
    obtain ⟨⟨i, l⟩, hm⟩ := List.exists_mem_of_ne_nil _ h
    exact ⟨i, l, (C47_named_pairs tol c t i l).1 hm⟩
  · rintro ⟨i, l, h⟩
    exact List.ne_nil_of_mem ((C47_named_pairs tol c t i l).2 h)

/-- **C47.** For a complete table the mean is that of the LED over the reference images. -/
theorem C47_complete_table (tol : K) (c : RefChoice) (imgs leds : List Nat) (v : Nat → Nat → K)
    (hl : leds.Pairwise (· < ·)) (i l : Nat) :
    (i, l) ∈ hits tol c (tableOf imgs leds v) ↔ i ∈ imgs ∧ l ∈ leds ∧ c.selects i = true ∧
      tol * |meanOver (imgs.filter c.selects) v l| < |v i l - meanOver (imgs.filter c.selects) v l| := by
  rw [C47_named_pairs]
  have hmem : ∀ x, (i, l, x) ∈ tableOf imgs leds v ↔ i ∈ imgs ∧ l ∈ leds ∧ x = v i l := by
    intro x
    unfold tableOf
    simp only [List.mem_flatMap, List.mem_map, Prod.mk.injEq]
    constructor
    · rintro ⟨i', h1, l', h2, rfl, rfl, rfl⟩; exact ⟨h1, h2, rfl⟩
    · rintro ⟨h1, h2, rfl⟩; exact ⟨i, h1, l, h2, rfl, rfl, rfl⟩
  have hmean : l ∈ leds → refMean c (tableOf imgs leds v) l = meanOver (imgs.filter c.selects) v l := by
    intro hm
    unfold refMean
    rw [refData_tableOf, ledValues_tableOf v (hl.imp fun h => Nat.ne_of_lt h) hm]
    simp [meanOf, meanOver]
  constructor
  · rintro ⟨x, h1, h2, h3⟩
    obtain ⟨hi, hl', rfl⟩ := (hmem x).1 h1
    rw [hmean hl'] at h3
    exact ⟨hi, hl', h2, h3⟩
  · rintro ⟨h1, h2, h3, h4⟩
    exact ⟨v i l, (hmem _).2 ⟨h1, h2, rfl⟩, h3, by rw [hmean h2]; exact h4⟩

end Ordered

/-! ### Concrete cases -/

/-- Three images of two LEDs; the second LED is dimmed in the third image. -/
def demoData : ImgData ℚ := [(1, 4, 10), (1, 7, 20), (2, 4, 12), (2, 7, 20), (3, 4, 11), (3, 7, 5)]

example : serialRel demoData (refIntensities (.first 2) demoData) = .ok [[10 / 11, 1], [12 / 11, 1], [1, 1 / 4]] := by
  decide +kernel
example : poolRel demoData (refIntensities (.ids [1, 2]) demoData) = .ok [[10 / 11, 1], [12 / 11, 1], [1, 1 / 4]] := by
  decide +kernel
example : hits (75 / 1000) (.first 2) demoData = [(1, 4), (2, 4)] := by decide +kernel
example : hits (1 / 10) (.first 2) demoData = [] := by decide +kernel
example : poolRel (demoData.drop 2) [1, 1] = .error .keyError := by decide +kernel
example : serialRel (demoData.drop 2) [1, 1] = .ok [[12, 20], [11, 5]] := by decide +kernel
example : runSerialTimes (linearSolver fun r : List ℚ => r.length) [[1], [2, 3]] 2 = [1, 2, 1, 2] := by decide +kernel

end Ledsa
