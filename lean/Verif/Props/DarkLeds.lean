import Verif.Model.DarkLeds
import Verif.Props.Robust
import Verif.Props.BrightnessDrift
/-
C182: LEDs that are dark in the reference images or fail during the experiment. Every analysis with the linear solver has a result.
-/
namespace Ledsa
open scoped BigOperators

/-! ### Non-negative least squares always has a solution -/

theorem injective_bound {ι : Type} [Fintype ι] {n : ℕ} (B : ι → Fin n → ℝ) (h : ∀ z : Fin n → ℝ, (∀ i, ∑ l, B i l * z l = 0) → z = 0) :
    ∃ K : ℝ, 0 ≤ K ∧ ∀ x : Fin n → ℝ, normSq x ≤ K * ∑ i, (∑ l, B i l * x l) ^ 2 := by
  set Q : (Fin n → ℝ) → ℝ := fun x => ∑ i, (∑ l, B i l * x l) ^ 2 with hQ
  have hQc : Continuous Q := by
    rw [hQ]
    fun_prop
  have hNc : Continuous fun x : Fin n → ℝ => normSq x := by
    unfold normSq
    fun_prop
  have hQ0 : ∀ x, 0 ≤ Q x := fun x => Finset.sum_nonneg fun _ _ => sq_nonneg _
  set S : Set (Fin n → ℝ) := {x | normSq x = 1} with hS
  have hcl : IsClosed S := isClosed_eq hNc continuous_const
  have hbd : Bornology.IsBounded S := by
    refine (Metric.isBounded_closedBall (x := (0 : Fin n → ℝ)) (r := 1)).subset ?_
    intro x hx
    rw [mem_closedBall_zero_iff, pi_norm_le_iff_of_nonneg zero_le_one]
    intro k
    rw [Real.norm_eq_abs, abs_le_one_iff_mul_self_le_one]
    have h1 : x k ^ 2 ≤ normSq x := Finset.single_le_sum (f := fun k => x k ^ 2) (fun k _ => sq_nonneg _) (Finset.mem_univ k)
    have h2 : normSq x = 1 := hx
    nlinarith
  have hscale : ∀ (c : ℝ) (x : Fin n → ℝ), normSq (fun k => c * x k) = c ^ 2 * normSq x ∧ Q (fun k => c * x k) = c ^ 2 * Q x := by
    intro c x
    constructor
    · unfold normSq
      rw [Finset.mul_sum]
      exact Finset.sum_congr rfl fun k _ => by ring
    · rw [hQ]
      simp only
      rw [Finset.mul_sum]
      refine Finset.sum_congr rfl fun i _ => ?_
      rw [← mul_pow, Finset.mul_sum]
      congr 1
      exact Finset.sum_congr rfl fun l _ => by ring
  by_cases hne : S.Nonempty
  · obtain ⟨y, hy, hmin⟩ := (Metric.isCompact_of_isClosed_isBounded hcl hbd).exists_isMinOn hne hQc.continuousOn
    have hpos : 0 < Q y := by
      rcases (hQ0 y).lt_or_eq with h1 | h1
      · exact h1
      · exfalso
        have hz : y = 0 := by
          apply h
          intro i
          have := (Finset.sum_eq_zero_iff_of_nonneg (fun i _ => sq_nonneg (∑ l, B i l * y l))).1 h1.symm i (Finset.mem_univ i)
          exact pow_eq_zero_iff (two_ne_zero) |>.1 this
        have : normSq y = 1 := hy
        rw [hz] at this
        simp [normSq] at this
    refine ⟨(Q y)⁻¹, (inv_pos.2 hpos).le, fun x => ?_⟩
    have hn0 : 0 ≤ normSq x := Finset.sum_nonneg fun _ _ => sq_nonneg _
    rcases hn0.lt_or_eq with h1 | h1
    · have hs := Real.sqrt_pos.2 h1
      have hx1 : normSq (fun k => (Real.sqrt (normSq x))⁻¹ * x k) = 1 := by
        rw [(hscale _ _).1, inv_pow, Real.sq_sqrt hn0, inv_mul_cancel₀ h1.ne']
      have := hmin (show (fun k => (Real.sqrt (normSq x))⁻¹ * x k) ∈ S from hx1)
      have h2 : Q y ≤ Q fun k => (Real.sqrt (normSq x))⁻¹ * x k := this
      rw [(hscale _ _).2, inv_pow, Real.sq_sqrt hn0, ← div_eq_inv_mul, le_div_iff₀ h1] at h2
      rw [← div_eq_inv_mul, le_div_iff₀ hpos, mul_comm]
      exact h2
    · rw [← h1]
      exact mul_nonneg (inv_pos.2 hpos).le (hQ0 x)
  · refine ⟨0, le_rfl, fun x => ?_⟩
    rw [zero_mul]
    by_contra hx
    push Not at hx
    apply hne
    refine ⟨fun k => (Real.sqrt (normSq x))⁻¹ * x k, ?_⟩
    show normSq _ = 1
    rw [(hscale _ _).1, inv_pow, Real.sq_sqrt hx.le, inv_mul_cancel₀ hx.ne']

/-- A non-negative vector can be changed along a direction with a positive entry until an entry is zero. -/
theorem reduce_support {n : ℕ} (z : Fin n → ℝ) (hz : ∃ l, 0 < z l) (x : Fin n → ℝ) (hx : ∀ l, 0 ≤ x l) :
    ∃ (t : ℝ) (l : Fin n), x l - t * z l = 0 ∧ ∀ k, 0 ≤ x k - t * z k := by
  classical
  obtain ⟨l0, hl0⟩ := hz
  obtain ⟨l, hl, hmin⟩ := Finset.exists_min_image (Finset.univ.filter fun l => 0 < z l) (fun l => x l / z l) ⟨l0, by simp [hl0]⟩
  rw [Finset.mem_filter] at hl
  refine ⟨x l / z l, l, by rw [div_mul_cancel₀ _ hl.2.ne', sub_self], fun k => ?_⟩
  by_cases hk : 0 < z k
  · have := hmin k (by simp [hk])
    rw [div_le_div_iff₀ hl.2 hk] at this
    rw [sub_nonneg, div_mul_eq_mul_div, div_le_iff₀ hl.2]
    linarith
  · have h1 : 0 ≤ x l / z l := div_nonneg (hx l) hl.2.le
    have h2 : x l / z l * z k ≤ 0 := mul_nonpos_of_nonneg_of_nonpos h1 (not_lt.1 hk)
    linarith [hx k]

theorem minimiser_exists {ι : Type} [Fintype ι] (b : ι → ℝ) : ∀ (n : ℕ) (B : ι → Fin n → ℝ), ∃ x, IsMinimiser B b x := by
  intro n
  induction n with
  | zero => exact fun B => ⟨fun _ => 0, fun _ => le_rfl, fun y _ => le_of_eq (congrArg _ (Subsingleton.elim _ _))⟩
  | succ n ih =>
    intro B
    by_cases hinj : ∀ z : Fin (n + 1) → ℝ, (∀ i, ∑ l, B i l * z l = 0) → z = 0
    · obtain ⟨K, hK, hB⟩ := injective_bound B hinj
      obtain ⟨x, hx⟩ := nnls_exists B b K hK hB
      exact ⟨x, hx.toIsMinimiser⟩
    · push Not at hinj
      obtain ⟨z0, hz0, hz1⟩ := hinj
      obtain ⟨z, hz, hpos⟩ : ∃ z : Fin (n + 1) → ℝ, (∀ i, ∑ l, B i l * z l = 0) ∧ ∃ l, 0 < z l := by
        by_cases h : ∃ l, 0 < z0 l
        · exact ⟨z0, hz0, h⟩
        · push Not at h
          refine ⟨fun l => -z0 l, fun i => ?_, ?_⟩
          · simp only [mul_neg, Finset.sum_neg_distrib, hz0 i, neg_zero]
          · by_contra hno
            push Not at hno
            exact hz1 (funext fun l => le_antisymm (h l) (neg_nonpos.1 (hno l)))
      choose y hy using fun l : Fin (n + 1) => ih fun i k => B i (l.succAbove k)
      have hval : ∀ (l : Fin (n + 1)) (w : Fin n → ℝ), residual B b (l.insertNth 0 w) = residual (fun i k => B i (l.succAbove k)) b w := by
        intro l w
        unfold residual
        refine Finset.sum_congr rfl fun i _ => ?_
        rw [Fin.sum_univ_succAbove _ l]
        simp
      obtain ⟨l, _, hl⟩ := Finset.exists_min_image Finset.univ (fun l : Fin (n + 1) => residual B b (l.insertNth (α := fun _ => ℝ) 0 (y l)))
        Finset.univ_nonempty
      refine ⟨l.insertNth 0 (y l), ?_, ?_⟩
      · intro k
        refine Fin.succAboveCases l ?_ (fun j => ?_) k
        · simp
        · simpa using (hy l).nonneg j
      · intro w hw
        obtain ⟨t, m, hm, hge⟩ := reduce_support z hpos w hw
        have e1 : residual B b w = residual B b fun k => w k - t * z k := by
          unfold residual
          refine Finset.sum_congr rfl fun i _ => ?_
          have : ∑ k, B i k * (w k - t * z k) = ∑ k, B i k * w k - t * ∑ k, B i k * z k := by
            rw [Finset.mul_sum, ← Finset.sum_sub_distrib]
            exact Finset.sum_congr rfl fun k _ => by ring
          rw [this, hz i, mul_zero, sub_zero]
        have e2 : (fun k => w k - t * z k) = m.insertNth (α := fun _ => ℝ) 0 fun k => w (m.succAbove k) - t * z (m.succAbove k) := by
          funext k
          refine Fin.succAboveCases m ?_ (fun j => ?_) k
          · simpa using hm
          · simp
        rw [e1, e2]
        refine (hl m (Finset.mem_univ m)).trans ?_
        rw [hval, hval]
        exact (hy m).minimal _ fun k => hge _

/-- Non-negative least squares has a solution for every matrix and every right hand side. -/
theorem nnls_solvable {ι : Type} [Fintype ι] {n : ℕ} (B : ι → Fin n → ℝ) (b : ι → ℝ) : ∃ x, IsNnls B b x := by
  by_cases h0 : ∀ l, ∑ i, B i l * b i ≤ 0
  · refine ⟨0, (minimiser_iff B b 0).2 fun l => ⟨le_rfl, ?_, ?_⟩, fun _ => rfl⟩
    · unfold slope
      simp only [Pi.zero_apply, mul_zero, Finset.sum_const_zero, zero_sub, mul_neg, Finset.sum_neg_distrib]
      linarith [h0 l]
    · simp
  · obtain ⟨x, hx⟩ := minimiser_exists b n B
    exact ⟨x, hx, fun h => absurd h h0⟩


theorem linearImage_exists (n : ℕ) (rows : List (Option (List ℝ))) (lam : ℝ) (rel : List ℝ) : ∃ r, LinearImage n rows lam rel r := by
  unfold LinearImage
  cases rows.mapM id with
  | none => exact ⟨_, rfl⟩
  | some M =>
    simp only
    split
    · obtain ⟨x, hx⟩ := nnls_solvable (augMatrix (distEntry M (n := n)) lam) (augRhs n fun (i : Fin M.length) => rel.getD i 0)
      exact ⟨.ok x, x, rfl, hx⟩
    · exact ⟨_, rfl⟩

theorem forall₂_exists {α β : Type} (P : α → β → Prop) (h : ∀ x, ∃ y, P x y) : ∀ xs : List α, ∃ ys, List.Forall₂ P xs ys
  | [] => ⟨[], .nil⟩
  | x :: xs => by
    obtain ⟨y, hy⟩ := h x
    obtain ⟨ys, hys⟩ := forall₂_exists P h xs
    exact ⟨y :: ys, .cons hy hys⟩

/-- **C182 (the analysis ends).** Whatever the result files and the settings, the linear analysis has a result: coefficients or an error. -/
theorem C182_exists (a : ArrayAnalysis) (files : ℕ → List (ℕ × ℕ × ℝ)) (N : ℕ) : ∃ r, a.Result files N r := by
  unfold ArrayAnalysis.Result ArrayAnalysis.ResultOf
  cases a.solverInput files N with
  | error e => exact ⟨_, rfl⟩
  | ok p =>
    obtain ⟨rs, h⟩ := forall₂_exists _ (linearImage_exists a.layers p.1 a.lam) p.2
    exact ⟨_, rs, h, rfl⟩

theorem floatImage_exists (n : ℕ) (rows : List (Option (List ℝ))) (lam : ℝ) (rel : List NpFloat) : ∃ r, FloatImage n rows lam rel r := by
  unfold FloatImage
  cases rel.mapM NpFloat.clip with
  | none => exact ⟨_, rfl⟩
  | some c => exact linearImage_exists n rows lam c

theorem C182_float_exists (a : ArrayAnalysis) (data : Except PyErr (ImgData ℝ)) : ∃ r, a.FloatResult data r := by
  unfold ArrayAnalysis.FloatResult
  cases a.floatInput data with
  | error e => exact ⟨_, rfl⟩
  | ok p =>
    obtain ⟨rs, h⟩ := forall₂_exists _ (floatImage_exists a.layers p.1 a.lam) p.2
    exact ⟨_, rs, h, rfl⟩

/-! ### LEDs that are lit in the reference images: the real numbers of the model are those of numpy -/

theorem clip_clip (x : ℝ) : clip (clip x) = clip x := by
  unfold clip
  rw [max_eq_left (le_min (le_max_right _ _) (by norm_num)), min_eq_left (min_le_right _ _)]

theorem linearImage_clip (n : ℕ) (rows : List (Option (List ℝ))) (lam : ℝ) (rel : List ℝ) (r : Except PyErr (Fin n → ℝ)) :
    LinearImage n rows lam (rel.map clip) r ↔ LinearImage n rows lam rel r := by
  unfold LinearImage
  cases rows.mapM id with
  | none => exact Iff.rfl
  | some M =>
    simp only [List.length_map]
    by_cases h : rel.length = M.length
    · rw [if_pos h, if_pos h]
      have e : augRhs n (fun (i : Fin M.length) => (rel.map clip).getD i 0) = augRhs n fun (i : Fin M.length) => rel.getD i 0 := by
        funext j
        cases j with
        | inr j => rfl
        | inl i =>
          have hi : (i : ℕ) < rel.length := lt_of_lt_of_eq i.2 h.symm
          simp only [augRhs, opticalDepth, List.getD_eq_getElem?_getD, List.getElem?_map, List.getElem?_eq_getElem hi, Option.map_some, Option.getD_some,
            clip_clip]
      unfold LinearSolution
      rw [e]
    · rw [if_neg h, if_neg h]

theorem mapM_clip_num (rel : List ℝ) : (rel.map NpFloat.num).mapM NpFloat.clip = some (rel.map clip) := by
  induction rel with
  | nil => rfl
  | cons x xs ih => rw [List.map_cons, List.mapM_cons, ih]; rfl

theorem floatImage_num (n : ℕ) (rows : List (Option (List ℝ))) (lam : ℝ) (rel : List ℝ) (r : Except PyErr (Fin n → ℝ)) :
    FloatImage n rows lam (rel.map .num) r ↔ LinearImage n rows lam rel r := by
  unfold FloatImage
  rw [mapM_clip_num]
  exact linearImage_clip n rows lam rel r

theorem npQuotients_num (v ref : List ℝ) (h : ∀ y ∈ ref, y ≠ 0) : npQuotients v ref = (npDivide v ref).map fun l => l.map .num := by
  have hq : ∀ x, ∀ y ∈ ref, npQuotient x y = .num (x / y) := by
    intro x y hy
    unfold npQuotient
    rw [if_neg (h y hy)]
  have hz : ∀ (v r : List ℝ), (∀ y ∈ r, y ∈ ref) → v.zipWith npQuotient r = (v.zipWith (· / ·) r).map .num := by
    intro v r
    induction v generalizing r with
    | nil => intro _; simp
    | cons x xs ih =>
      cases r with
      | nil => intro _; simp
      | cons y ys =>
        intro hr
        rw [List.zipWith_cons_cons, List.zipWith_cons_cons, List.map_cons, hq x y (hr y (by simp)), ih ys fun z hz => hr z (by simp [hz])]
  unfold npQuotients npDivide
  by_cases hl : v.length = ref.length
  · rw [if_pos hl, if_pos hl, hz v ref fun _ h => h]
    rfl
  · rw [if_neg hl, if_neg hl]
    match v, ref with
    | [x], r =>
      show Except.ok (r.map (npQuotient x)) = Except.ok ((r.map (x / ·)).map .num)
      rw [List.map_map]
      congr 1
      exact List.map_congr_left fun y hy => hq x y hy
    | [], [y] =>
      rfl
    | a :: b :: t, [y] =>
      show Except.ok ((a :: b :: t).map fun x => npQuotient x y) = Except.ok (((a :: b :: t).map (· / y)).map .num)
      rw [List.map_map]
      congr 1
      exact List.map_congr_left fun x _ => hq x y (by simp)
    | [], [] => rfl
    | [], _ :: _ :: _ => rfl
    | _ :: _ :: _, [] => rfl
    | _ :: _ :: _, _ :: _ :: _ => rfl

theorem mapM_except_map {α β γ : Type} (f : α → Except PyErr β) (g : β → γ) : ∀ xs : List α,
    xs.mapM (fun x => (f x).map g) = (xs.mapM f).map fun ys => ys.map g
  | [] => rfl
  | x :: xs => by
    rw [List.mapM_cons, List.mapM_cons, mapM_except_map f g xs]
    cases f x with
    | error e => rfl
    | ok y => cases xs.mapM f <;> rfl

/-- **C182 (LEDs that are lit).** If every LED has a reference intensity other than zero, `inf` and `nan` do not occur: the analysis is the one with
real numbers, about which the other properties speak. -/
theorem C182_lit (a : ArrayAnalysis) (t : ImgData ℝ) (h : ∀ y ∈ refIntensities a.ref t, y ≠ 0) (r : Except PyErr (List (Fin a.layers → ℝ))) :
    a.FloatResult (.ok t) r ↔ a.ResultOf (a.inputOf (.ok t)) r := by
  have hs : serialFloats t (refIntensities a.ref t) = (serialRel t (refIntensities a.ref t)).map fun l => l.map (List.map .num) := by
    unfold serialFloats serialRel
    rw [← mapM_except_map]
    congr 1
    funext i
    exact npQuotients_num _ _ h
  have hp : poolFloats t (refIntensities a.ref t) = (poolRel t (refIntensities a.ref t)).map fun l => l.map (List.map .num) := by
    unfold poolFloats poolRel
    cases toArray t with
    | error e => rfl
    | ok rows =>
      simp only
      rw [← mapM_except_map]
      congr 1
      funext i
      exact npQuotients_num _ _ h
  have hi : a.floatInput (.ok t) = (a.inputOf (.ok t)).map fun p => (p.1, p.2.map (List.map .num)) := by
    unfold ArrayAnalysis.floatInput ArrayAnalysis.inputOf
    cases ledPositions a.coordinates a.ids with
    | error e => rfl
    | ok leds =>
      simp only [bind, Except.bind]
      rw [hs, hp]
      cases a.parallel with
      | false =>
        simp only [Bool.false_eq_true, if_false]
        cases serialRel t (refIntensities a.ref t) <;> rfl
      | true =>
        simp only [if_true]
        cases poolRel t (refIntensities a.ref t) <;> rfl
  unfold ArrayAnalysis.FloatResult ArrayAnalysis.ResultOf
  rw [hi]
  cases a.inputOf (.ok t) with
  | error e => exact Iff.rfl
  | ok p =>
    obtain ⟨rows, rels⟩ := p
    show (∃ rs, List.Forall₂ (FloatImage a.layers rows a.lam) (rels.map (List.map .num)) rs ∧ r = rs.mapM id) ↔
      ∃ rs, List.Forall₂ (LinearImage a.layers rows a.lam) rels rs ∧ r = rs.mapM id
    refine exists_congr fun rs => and_congr_left fun _ => ?_
    rw [List.forall₂_map_left_iff]
    simp only [floatImage_num]

/-! ### LEDs that are dark in all reference images -/

theorem floatImage_nan (n : ℕ) (rows : List (Option (List ℝ))) (lam : ℝ) (rel : List NpFloat) (h : .nan ∈ rel) (r : Except PyErr (Fin n → ℝ)) :
    FloatImage n rows lam rel r ↔ r = .error .valueError := by
  have hn : rel.mapM NpFloat.clip = none := by
    induction rel with
    | nil => simp at h
    | cons x xs ih =>
      rw [List.mapM_cons]
      rcases List.mem_cons.1 h with rfl | h
      · rfl
      · rw [ih h]
        cases NpFloat.clip x <;> rfl
  unfold FloatImage
  rw [hn]

theorem linearImage_error (n : ℕ) (rows : List (Option (List ℝ))) (lam : ℝ) (rel : List ℝ) (e : PyErr) (h : LinearImage n rows lam rel (.error e)) :
    e = .valueError := by
  unfold LinearImage at h
  cases hM : rows.mapM id with
  | none => rw [hM] at h; cases h; rfl
  | some M =>
    rw [hM] at h
    simp only at h
    split at h
    · obtain ⟨σ, h1, _⟩ := h; cases h1
    · cases h; rfl

theorem floatImage_error (n : ℕ) (rows : List (Option (List ℝ))) (lam : ℝ) (rel : List NpFloat) (e : PyErr) (h : FloatImage n rows lam rel (.error e)) :
    e = .valueError := by
  unfold FloatImage at h
  cases hc : rel.mapM NpFloat.clip with
  | none => rw [hc] at h; cases h; rfl
  | some c => rw [hc] at h; exact linearImage_error n rows lam c e h

theorem mapM_id_error {C : Type} : ∀ rs : List (Except PyErr C), (∃ e, .error e ∈ rs) → (∀ e, .error e ∈ rs → e = .valueError) →
    rs.mapM id = .error .valueError
  | [], h, _ => by obtain ⟨e, h⟩ := h; cases h
  | x :: xs, h, hv => by
    rw [List.mapM_cons]
    cases x with
    | error e => rw [hv e (by simp)]; rfl
    | ok y =>
      have : xs.mapM id = .error .valueError := mapM_id_error xs (by obtain ⟨e, h⟩ := h; exact ⟨e, by simpa using h⟩) fun e he => hv e (by simp [he])
      rw [this]; rfl

theorem npQuotients_map (leds : List ℕ) (f g : ℕ → ℝ) : npQuotients (leds.map f) (leds.map g) = .ok (leds.map fun l => npQuotient (f l) (g l)) := by
  unfold npQuotients
  rw [if_pos (by simp)]
  congr 1
  induction leds with
  | nil => rfl
  | cons a t ih => simp [ih]

/-- The relative intensities of image `i` in a complete table. -/
noncomputable def floatsOf (c : RefChoice) (N : ℕ) (leds : List ℕ) (v : ℕ → ℕ → ℝ) (i : ℕ) : List NpFloat :=
  leds.map fun l => npQuotient (v i l) (meanOver ((firstImgs N).filter c.selects) v l)

theorem floatInput_table (a : ArrayAnalysis) (N : ℕ) (leds : List ℕ) (v : ℕ → ℕ → ℝ) (hN : 0 < N) (hl : leds.Pairwise (· < ·)) (hne : leds ≠ [])
    (href : ∃ i, 1 ≤ i ∧ i ≤ N ∧ a.ref.selects i = true) (pos : List P3) (hp : ledPositions a.coordinates a.ids = .ok pos) :
    a.floatInput (.ok (tableOf (firstImgs N) leds v)) =
      .ok (distanceArray a.cam (layers a.lo a.hi a.layers) pos, (firstImgs N).map (floatsOf a.ref N leds v)) := by
  obtain ⟨i0, hi1, hi2, hi3⟩ := href
  have hr' : (firstImgs N).filter a.ref.selects ≠ [] :=
    List.ne_nil_of_mem (List.mem_filter.2 ⟨(mem_firstImgs N i0).2 ⟨hi1, hi2⟩, hi3⟩)
  have hnd := (firstImgs_sorted N).imp fun h => Nat.ne_of_lt h
  have hs : serialFloats (tableOf (firstImgs N) leds v) (refIntensities a.ref (tableOf (firstImgs N) leds v)) =
      .ok ((firstImgs N).map (floatsOf a.ref N leds v)) := by
    unfold serialFloats
    rw [imgKeys_tableOf v (firstImgs_sorted N) hne, refIntensities_tableOf a.ref v hl hr']
    apply mapM_ok
    intro i hm
    rw [imgValues_tableOf v hnd hm, npQuotients_map]
    rfl
  have hpl : poolFloats (tableOf (firstImgs N) leds v) (refIntensities a.ref (tableOf (firstImgs N) leds v)) =
      .ok ((firstImgs N).map (floatsOf a.ref N leds v)) := by
    unfold poolFloats
    rw [toArray_tableOf N hN leds v hl hne, refIntensities_tableOf a.ref v hl hr']
    simp only
    rw [List.mapM_map]
    apply mapM_ok
    intro i hm
    show npQuotients (leds.map (v i)) _ = _
    rw [npQuotients_map]
    rfl
  unfold ArrayAnalysis.floatInput
  rw [hp]
  simp only [bind, Except.bind]
  cases a.parallel with
  | false => simp only [Bool.false_eq_true, if_false]; rw [hs]
  | true => simp only [if_true]; rw [hpl]

theorem forall₂_left_mem {α β : Type} {P : α → β → Prop} {xs : List α} {ys : List β} (h : List.Forall₂ P xs ys) {x : α} (hx : x ∈ xs) : ∃ y ∈ ys, P x y := by
  induction h with
  | nil => cases hx
  | cons h1 _ ih =>
    rcases List.mem_cons.1 hx with rfl | hx
    · exact ⟨_, by simp, h1⟩
    · obtain ⟨y, hy, hP⟩ := ih hx
      exact ⟨y, by simp [hy], hP⟩

theorem forall₂_right_mem {α β : Type} {P : α → β → Prop} {xs : List α} {ys : List β} (h : List.Forall₂ P xs ys) {y : β} (hy : y ∈ ys) : ∃ x ∈ xs, P x y := by
  obtain ⟨x, hx, hP⟩ := forall₂_left_mem h.flip hy
  exact ⟨x, hx, hP⟩

/-- The LED `l` is dark in all reference images among the images `1..N`. -/
def DarkInReferences (c : RefChoice) (N : ℕ) (v : ℕ → ℕ → ℝ) (l : ℕ) : Prop := ∀ i, 1 ≤ i → i ≤ N → c.selects i = true → v i l = 0

theorem dark_mean {c : RefChoice} {N : ℕ} {v : ℕ → ℕ → ℝ} {l : ℕ} (h : DarkInReferences c N v l) :
    meanOver ((firstImgs N).filter c.selects) v l = 0 := by
  unfold meanOver
  rw [List.sum_eq_zero, zero_div]
  intro x hx
  rw [List.mem_map] at hx
  obtain ⟨j, hj, rfl⟩ := hx
  rw [List.mem_filter, mem_firstImgs] at hj
  exact h j hj.1.1 hj.1.2 hj.2

theorem list_sum_pos_of {xs : List ℝ} (h : ∀ x ∈ xs, 0 ≤ x) (y : ℝ) (hy : y ∈ xs) (hpos : 0 < y) : 0 < xs.sum :=
  lt_of_lt_of_le hpos (List.single_le_sum h y hy)

/-- **C182 (dark LEDs).** One LED of the array that is dark in all reference images ends the analysis of the array with an error: no image gets
coefficients, with one core or with several. -/
theorem C182_dark (a : ArrayAnalysis) (files : ℕ → List (ℕ × ℕ × ℝ)) (N : ℕ) (leds : List ℕ) (v : ℕ → ℕ → ℝ)
    (hc : CompleteSeries a.ref a.arr files N leds v) (pos : List P3) (hp : ledPositions a.coordinates a.ids = .ok pos) (l : ℕ) (hl : l ∈ leds)
    (hd : DarkInReferences a.ref N v l) (r : Except PyErr (List (Fin a.layers → ℝ))) :
    a.FloatResult (arrayData (loadedTable files N) a.arr) r ↔ r = .error .valueError := by
  have hfor : ∀ r, a.FloatResult (arrayData (loadedTable files N) a.arr) r → r = .error .valueError := by
    intro r hr
    rw [arrayData_ok files N a.arr hc.pos leds v hc.sorted hc.ne hc.nodup hc.rows] at hr
    unfold ArrayAnalysis.FloatResult at hr
    rw [floatInput_table a N leds v hc.pos hc.sorted hc.ne hc.ref pos hp] at hr
    obtain ⟨rs, h, rfl⟩ := hr
    obtain ⟨i, h1, h2, h3⟩ := hc.ref
    apply mapM_id_error
    · have hmem : floatsOf a.ref N leds v i ∈ (firstImgs N).map (floatsOf a.ref N leds v) := List.mem_map_of_mem ((mem_firstImgs N i).2 ⟨h1, h2⟩)
      obtain ⟨y, hy, hP⟩ := forall₂_left_mem h hmem
      refine ⟨.valueError, ?_⟩
      have hnan : NpFloat.nan ∈ floatsOf a.ref N leds v i := by
        unfold floatsOf
        refine List.mem_map.2 ⟨l, hl, ?_⟩
        rw [dark_mean hd, hd i h1 h2 h3]
        simp [npQuotient]
      rw [(floatImage_nan _ _ _ _ hnan _).1 hP] at hy
      exact hy
    · intro e he
      obtain ⟨x, _, hP⟩ := forall₂_right_mem h he
      exact floatImage_error _ _ _ _ _ hP
  refine ⟨hfor r, ?_⟩
  rintro rfl
  obtain ⟨r, hr⟩ := C182_float_exists a (arrayData (loadedTable files N) a.arr)
  exact hfor r hr ▸ hr

/-- **C182 (when coefficients are found).** Light intensities are not negative. The linear analysis of an array whose LEDs have positions and distances
gives coefficients if and only if every LED of the array shines in at least one reference image. -/
theorem C182_iff (a : ArrayAnalysis) (files : ℕ → List (ℕ × ℕ × ℝ)) (N : ℕ) (leds : List ℕ) (pos : ℕ → P3) (v : ℕ → ℕ → ℝ) (hs : SeenArray a leds pos)
    (hc : CompleteSeries a.ref a.arr files N leds v) (hv : ∀ i, 1 ≤ i → i ≤ N → ∀ l ∈ leds, 0 ≤ v i l) :
    (∃ cs, a.FloatResult (arrayData (loadedTable files N) a.arr) (.ok cs)) ↔
      ∀ l ∈ leds, ∃ i, 1 ≤ i ∧ i ≤ N ∧ a.ref.selects i = true ∧ 0 < v i l := by
  obtain ⟨ds, hin, _⟩ := seenArray_distances a leds pos hs
  obtain ⟨ps, hp⟩ : ∃ ps, ledPositions a.coordinates a.ids = .ok ps := by
    cases hp : ledPositions a.coordinates a.ids with
    | ok ps => exact ⟨ps, rfl⟩
    | error e =>
      exfalso
      have h2 := hin (tableOf (firstImgs N) leds v)
      unfold ArrayAnalysis.inputOf at h2
      rw [hp] at h2
      obtain ⟨i0, hi1, hi2, hi3⟩ := hc.ref
      have hrel := C46_value a.ref (firstImgs N) leds v (firstImgs_sorted N) hc.sorted hc.ne ⟨i0, (mem_firstImgs N i0).2 ⟨hi1, hi2⟩, hi3⟩
      rw [C45_same_intensities N hc.pos leds v hc.sorted hc.ne, hrel, ite_self] at h2
      cases h2
  constructor
  · rintro ⟨cs, hr⟩ l hl
    by_contra hno
    push Not at hno
    have hd : DarkInReferences a.ref N v l := fun i h1 h2 h3 => le_antisymm (hno i h1 h2 h3) (hv i h1 h2 l hl)
    cases (C182_dark a files N leds v hc ps hp l hl hd _).1 hr
  · intro h
    have hmean : ∀ l ∈ leds, meanOver ((firstImgs N).filter a.ref.selects) v l ≠ 0 := by
      intro l hl
      obtain ⟨i, h1, h2, h3, h4⟩ := h l hl
      have hi : i ∈ (firstImgs N).filter a.ref.selects := List.mem_filter.2 ⟨(mem_firstImgs N i).2 ⟨h1, h2⟩, h3⟩
      unfold meanOver
      refine (div_pos (list_sum_pos_of ?_ (v i l) (List.mem_map.2 ⟨i, hi, rfl⟩) h4) (by exact_mod_cast List.length_pos_of_mem hi)).ne'
      intro x hx
      obtain ⟨j, hj, rfl⟩ := List.mem_map.1 hx
      rw [List.mem_filter, mem_firstImgs] at hj
      exact hv j hj.1.1 hj.1.2 l hl
    obtain ⟨i0, hi1, hi2, hi3⟩ := hc.ref
    have hsel : ∃ i ∈ firstImgs N, a.ref.selects i = true := ⟨i0, (mem_firstImgs N i0).2 ⟨hi1, hi2⟩, hi3⟩
    have hr' : (firstImgs N).filter a.ref.selects ≠ [] := List.ne_nil_of_mem (List.mem_filter.2 ⟨hsel.choose_spec.1, hsel.choose_spec.2⟩)
    have hrel := C46_value a.ref (firstImgs N) leds v (firstImgs_sorted N) hc.sorted hc.ne hsel
    rw [arrayData_ok files N a.arr hc.pos leds v hc.sorted hc.ne hc.nodup hc.rows]
    have hlit : ∀ y ∈ refIntensities a.ref (tableOf (firstImgs N) leds v), y ≠ 0 := by
      rw [refIntensities_tableOf a.ref v hc.sorted hr']
      intro y hy
      obtain ⟨l, hl, rfl⟩ := List.mem_map.1 hy
      exact hmean l hl
    simp only [C182_lit a _ hlit]
    have hin' : a.inputOf (.ok (tableOf (firstImgs N) leds v)) = .ok (leds.map fun l => some (ds l), (firstImgs N).map fun i =>
        leds.map fun l => v i l / meanOver ((firstImgs N).filter a.ref.selects) v l) := by
      rw [hin, C45_same_intensities N hc.pos leds v hc.sorted hc.ne, hrel, ite_self]
      rfl
    have himg : ∀ rel : List ℝ, rel.length = leds.length → ∃ σ, LinearImage a.layers (leds.map fun l => some (ds l)) a.lam rel (.ok σ) := by
      intro rel hlen
      obtain ⟨r, hr⟩ := linearImage_exists a.layers (leds.map fun l => some (ds l)) a.lam rel
      have hM : (leds.map fun l => some (ds l)).mapM id = some (leds.map ds) := by
        rw [← mapM_id_some (leds.map ds), List.map_map]; rfl
      have hr2 := hr
      unfold LinearImage at hr2
      rw [hM] at hr2
      simp only at hr2
      rw [if_pos (by simpa using hlen)] at hr2
      obtain ⟨σ, rfl, _⟩ := hr2
      exact ⟨σ, hr⟩
    unfold ArrayAnalysis.ResultOf
    rw [hin']
    show ∃ cs, SeriesResult (LinearImage a.layers (leds.map fun l => some (ds l)) a.lam) _ (.ok cs)
    simp only [seriesResult_ok_iff]
    choose! σ hσ using himg
    refine ⟨((firstImgs N).map fun i => leds.map fun l => v i l / meanOver ((firstImgs N).filter a.ref.selects) v l).map σ, ?_⟩
    rw [List.forall₂_map_right_iff, List.forall₂_same]
    intro rel hrel
    obtain ⟨i, _, rfl⟩ := List.mem_map.1 hrel
    exact hσ _ (by simp)

/-- **C182 (no warning).** The check of the reference images does not name an LED that is dark in all of them. -/
theorem C182_not_named (tol : ℝ) (c : RefChoice) (N : ℕ) (leds : List ℕ) (v : ℕ → ℕ → ℝ) (hl : leds.Pairwise (· < ·)) (l : ℕ)
    (hd : DarkInReferences c N v l) (i : ℕ) : (i, l) ∉ hits tol c (tableOf (firstImgs N) leds v) := by
  rw [C47_complete_table tol c (firstImgs N) leds v hl]
  rintro ⟨h1, _, h3, h4⟩
  rw [mem_firstImgs] at h1
  rw [dark_mean hd, hd i h1.1 h1.2 h3] at h4
  simp at h4

/-! ### LEDs that fail during the experiment -/

/-- **C182 (LEDs that fail).** An LED without any light counts like one whose light is weakened by the factor `10^10`: its optical depth is `10 ln 10`. -/
theorem C182_failed (x : ℝ) (h : x ≤ 1 / 10 ^ 10) : opticalDepth x = 10 * Real.log 10 := by
  unfold opticalDepth clip
  rw [max_eq_right h, min_eq_left (by norm_num), one_div, Real.log_inv, Real.log_pow]
  push_cast
  ring

/-- An LED that fails during the experiment does not change the coefficients. -/
def FailedLedIsHarmless : Prop := ∀ (m n : ℕ) (A : Fin m → Fin n → ℝ) (lam : ℝ), 3 ≤ n → (∀ i l, 0 ≤ A i l) → DeterminesAffine A → 0 < lam →
  ∀ (rel : Fin m → ℝ) (failed : Fin m) (σ τ : Fin n → ℝ), LinearSolution A lam rel σ → LinearSolution A lam (Function.update rel failed 0) τ → τ = σ

/-- **C182 refuted**: in clear air one of three LEDs that fails makes the analysis report smoke. -/
theorem C182_false : ¬ FailedLedIsHarmless := by
  intro h
  have hA : ∀ i l, 0 ≤ threeRays 1 i l := fun i l => by unfold threeRays; split <;> norm_num
  obtain ⟨τ, hτ⟩ := nnls_solvable (augMatrix (threeRays 1) 1) (augRhs 3 (Function.update (fun _ => Real.exp (-0)) 0 0))
  obtain ⟨l, hl⟩ := C181_darker (threeRays 1) hA 1 (Function.update (fun _ => Real.exp (-0)) 0 0) ⟨0, 0, by simp [threeRays], by simp⟩ τ hτ
  have := h 3 3 (threeRays 1) 1 le_rfl hA (threeRays_determines one_ne_zero) one_pos (fun _ => Real.exp (-0)) 0 (fun _ => 0) τ
    ((threeRays_uniform 0 le_rfl (by norm_num) _).2 rfl) hτ
  rw [this] at hl
  exact lt_irrefl _ hl

/-! ### Cases -/

/-- Two images of two LEDs. LED 1 is switched on after the first image, the reference image. -/
noncomputable def lateFiles (i : ℕ) : List (ℕ × ℕ × ℝ) := [(1, 0, if i = 1 then 0 else 70), (9, 4, 1), (0, 0, 50)]

theorem lateFiles_complete : CompleteSeries exampleAnalysis.ref exampleAnalysis.arr lateFiles 2 [0, 1]
    (fun i l => if l = 0 then 50 else if i = 1 then 0 else 70) where
  pos := by norm_num
  sorted := by simp
  ne := by simp
  nodup := by intro i _ _; simp [lateFiles]
  rows := by
    intro i _ _ l x
    simp only [lateFiles, exampleAnalysis, List.mem_cons, Prod.mk.injEq, List.not_mem_nil, or_false]
    constructor
    · rintro (⟨rfl, _, rfl⟩ | ⟨_, h, _⟩ | ⟨rfl, _, rfl⟩)
      · exact ⟨.inr rfl, by simp⟩
      · cases h
      · exact ⟨.inl rfl, by simp⟩
    · rintro ⟨rfl | rfl, rfl⟩
      · exact .inr (.inr ⟨rfl, trivial, by simp⟩)
      · exact .inl ⟨rfl, trivial, by simp⟩
  ref := ⟨1, le_refl _, by norm_num, by simp [exampleAnalysis, RefChoice.selects]⟩

/-- A case: no coefficients, although both LEDs shine in the second image. With the second image as reference image there are coefficients. -/
example : (¬ ∃ cs, exampleAnalysis.FloatResult (arrayData (loadedTable lateFiles 2) 0) (.ok cs)) ∧
    ∃ cs, { exampleAnalysis with ref := .ids [2] }.FloatResult (arrayData (loadedTable lateFiles 2) 0) (.ok cs) := by
  have hv : ∀ i l : ℕ, (0 : ℝ) ≤ if l = 0 then 50 else if i = 1 then 0 else 70 := by
    intro i l
    split
    · norm_num
    · split <;> norm_num
  constructor
  · intro h
    have := (C182_iff exampleAnalysis lateFiles 2 [0, 1] examplePos _ exampleSeen lateFiles_complete fun i _ _ l _ => hv i l).1 h 1 (by simp)
    obtain ⟨i, h1, h2, h3, h4⟩ := this
    simp only [exampleAnalysis, RefChoice.selects, decide_eq_true_eq] at h3
    have : i = 1 := by omega
    subst this
    simp at h4
  · refine (C182_iff { exampleAnalysis with ref := .ids [2] } lateFiles 2 [0, 1] examplePos (fun i l => if l = 0 then 50 else if i = 1 then 0 else 70)
      ⟨exampleSeen.ids, exampleSeen.ascending, exampleSeen.nonempty, exampleSeen.positions, exampleSeen.layers, exampleSeen.domain, exampleSeen.rays⟩
      ⟨lateFiles_complete.pos, lateFiles_complete.sorted, lateFiles_complete.ne, lateFiles_complete.nodup, lateFiles_complete.rows,
        2, by norm_num, le_refl _, by simp [RefChoice.selects]⟩ fun i _ _ l _ => hv i l).2 ?_
    intro l hl
    refine ⟨2, by norm_num, le_refl _, by simp [RefChoice.selects], ?_⟩
    simp only [List.mem_cons, List.not_mem_nil, or_false] at hl
    rcases hl with rfl | rfl <;> norm_num

/-- **C182, bright later.** Light of an LED that is dark in the reference images is infinitely bright; this counts as clear air. -/
theorem C182_bright_later (x : ℝ) (h : 0 < x) : (npQuotient x 0).clip = some 1 := by
  simp [npQuotient, h, h.ne', NpFloat.clip]

end Ledsa
