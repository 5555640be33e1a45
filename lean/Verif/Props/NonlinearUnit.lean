import Verif.Props.Frames
import Verif.Props.Nonlinear
import Verif.Props.Locality
/-
C147 for the nonlinear solver: the unit of length. The cost function can be converted, the bounds 0 and 10 of the coefficients cannot.
-/
namespace Ledsa
open scoped BigOperators

/-- Weights of the cost function for lengths in another unit. -/
noncomputable def NonlinearOptions.inUnit (k : ℝ) (o : NonlinearOptions) : NonlinearOptions := ⟨k * o.curv, k * o.pref, o.tol⟩

/-- **C147, nonlinear solver**: with converted weights the cost of converted coefficients is the cost before. -/
theorem C147_cost_unit {m n : ℕ} (k : ℝ) (hk : 0 < k) (A : Fin m → Fin n → ℝ) (o : NonlinearOptions) (target : Fin m → ℝ) (σ : Fin n → ℝ) :
    costFunction (fun i l => k * A i l) (o.inUnit k).curv (o.inUnit k).pref target (fun l => σ l / k) = costFunction A o.curv o.pref target σ := by
  have h1 : ∀ led, calcIntensities (fun i l => k * A i l) (fun l => σ l / k) led = calcIntensities A σ led := by
    intro led
    rw [C42_beer_lambert, C42_beer_lambert]
    congr 2
    refine Finset.sum_congr rfl fun l _ => ?_
    field_simp
  have h2 : ∀ i, secondDiff (fun l => σ l / k) i = secondDiff σ i / k := by
    intro i
    unfold secondDiff
    ring
  unfold costFunction rmse curvature preference NonlinearOptions.inUnit
  simp only [h1, h2, abs_div, abs_of_pos hk, ← Finset.sum_div]
  congr 1
  · congr 1
    field_simp
  · field_simp

/-- **C147, nonlinear solver, larger unit** (`k ≤ 1`): if the converted coefficients are within the bounds 0 and 10, they are a result in the new
unit. -/
theorem C147_nonlinear_larger {m n : ℕ} (k : ℝ) (hk : 0 < k) (hk1 : k ≤ 1) (A : Fin m → Fin n → ℝ) (o : NonlinearOptions) (target : Fin m → ℝ)
    (σ : Fin n → ℝ) (h : NearBest A o target σ) (hb : ∀ l, σ l ≤ 10 * k) :
    NearBest (fun i l => k * A i l) (o.inUnit k) target fun l => σ l / k := by
  refine ⟨fun l => ⟨div_nonneg (h.1 l).1 hk.le, by rw [div_le_iff₀ hk]; exact hb l⟩, fun τ hτ => ?_⟩
  have e : τ = fun l => (k * τ l) / k := by funext l; field_simp
  rw [C147_cost_unit k hk]
  conv_rhs => rw [e, C147_cost_unit k hk]
  refine h.2 (fun l => k * τ l) fun l => ⟨mul_nonneg hk.le (hτ l).1, ?_⟩
  have := mul_le_mul hk1 (hτ l).2 (hτ l).1 zero_le_one
  linarith

/-- **C147, nonlinear solver, smaller unit** (`1 ≤ k`): if coefficients found in the new unit are within the bounds after conversion, they are a
result in the old unit. -/
theorem C147_nonlinear_smaller {m n : ℕ} (k : ℝ) (hk : 1 ≤ k) (A : Fin m → Fin n → ℝ) (o : NonlinearOptions) (target : Fin m → ℝ)
    (τ : Fin n → ℝ) (h : NearBest (fun i l => k * A i l) (o.inUnit k) target τ) (hb : ∀ l, k * τ l ≤ 10) :
    NearBest A o target fun l => k * τ l := by
  have hk0 : 0 < k := lt_of_lt_of_le one_pos hk
  have e : τ = fun l => (k * τ l) / k := by funext l; field_simp
  refine ⟨fun l => ⟨mul_nonneg hk0.le (h.1 l).1, hb l⟩, fun ρ hρ => ?_⟩
  have h1 := h.2 (fun l => ρ l / k) fun l => ⟨div_nonneg (hρ l).1 hk0.le, by
    rw [div_le_iff₀ hk0]
    have := (hρ l).2
    linarith⟩
  rw [C147_cost_unit k hk0] at h1
  rw [e, C147_cost_unit k hk0] at h1
  exact h1

theorem nonlinearImage_rows (n : ℕ) (M : List (List ℝ)) (o : NonlinearOptions) (rel : List ℝ) (m : ℕ) (hm : M.length = m)
    (r : Except PyErr (Fin n → ℝ)) : NonlinearImage n (M.map some) o rel r ↔
      if rel.length = m then ∃ σ, r = .ok σ ∧ NearBest (fun (i : Fin m) (l : Fin n) => (M.getD i []).getD l 0) o (fun (i : Fin m) => rel.getD i 0) σ
      else if rel.length = 1 ∨ m = 1 then True else r = .error .valueError := by
  subst hm
  have e : (M.map some).mapM id = some M := by
    induction M with
    | nil => rfl
    | cons x xs ih => rw [List.map_cons, List.mapM_cons, ih]; rfl
  unfold NonlinearImage
  rw [e]
  have e2 : (fun (i : Fin M.length) (l : Fin n) => (M.getD i []).getD l 0) = distEntry M := by
    funext i l
    simp [distEntry]
  rw [e2]

/-- **C147, nonlinear solver, analysis of an array in a larger unit**: with camera and LEDs in the domain, the coefficients of all images converted to
the new unit are a result of the analysis in the new unit, as long as they are within the bounds. -/
theorem C147_nonlinear_unit (k : ℝ) (hk : 0 < k) (hk1 : k ≤ 1) (a : ArrayAnalysis) (hn : 1 ≤ a.layers) (h : a.lo < a.hi)
    (hc : a.lo ≤ a.cam.2.2 ∧ a.cam.2.2 ≤ a.hi)
    (hl : ∀ x ∈ a.ids, ∀ p, a.coordinates[x]? = some p → a.lo ≤ p.2.2 ∧ p.2.2 ≤ a.hi ∧ p ≠ a.cam ∧ ¬ (a.cam.2.2 = a.hi ∧ p.2.2 = a.hi))
    (o : NonlinearOptions) (data : Except PyErr (ImgData ℝ)) (cs : List (Fin a.layers → ℝ)) (hr : a.NonlinearResultOf o (a.inputOf data) (.ok cs))
    (hb : ∀ σ ∈ cs, ∀ l, σ l ≤ 10 * k) :
    (a.inUnit k).NonlinearResultOf (o.inUnit k) ((a.inUnit k).inputOf data) (.ok (cs.map fun σ l => σ l / k)) := by
  have hp' : ledPositions (a.inUnit k).coordinates (a.inUnit k).ids = (ledPositions a.coordinates a.ids).map (List.map (Ledsa.inUnit k)) :=
    ledPositions_map _ _ _
  cases hp : ledPositions a.coordinates a.ids with
  | error x =>
    unfold ArrayAnalysis.inputOf at hr
    rw [hp] at hr; cases hr
  | ok leds =>
    rw [hp] at hp'
    have hleds := positions_mem a.coordinates a.ids leds hp
    cases data with
    | error x =>
      unfold ArrayAnalysis.inputOf at hr
      rw [hp] at hr; cases hr
    | ok d =>
      obtain ⟨M, h1, h2⟩ := distanceArray_unit k hk a.cam a.lo a.hi a.layers hn h hc leds fun p hpm => by
        obtain ⟨x, hx, hxp⟩ := hleds p hpm
        exact hl x hx p hxp
      rw [a.inputOf_ok leds hp] at hr
      rw [(a.inUnit k).inputOf_ok (leds.map (Ledsa.inUnit k)) hp']
      rw [show (a.inUnit k).parallel = a.parallel from rfl, show (a.inUnit k).ref = a.ref from rfl]
      generalize (if a.parallel = true then poolRel d (refIntensities a.ref d) else serialRel d (refIntensities a.ref d)) = rr at hr ⊢
      cases rr with
      | error x => cases hr
      | ok rels =>
        have hr' : SeriesResult (NonlinearImage a.layers (distanceArray a.cam (layers a.lo a.hi a.layers) leds) o) rels (.ok cs) := hr
        rw [seriesResult_ok_iff, h1] at hr'
        have e : distanceArray (a.inUnit k).cam (layers (a.inUnit k).lo (a.inUnit k).hi (a.inUnit k).layers) (leds.map (Ledsa.inUnit k)) =
            (M.map (List.map (k * ·))).map some := h2
        show SeriesResult (NonlinearImage a.layers (distanceArray (a.inUnit k).cam (layers (a.inUnit k).lo (a.inUnit k).hi (a.inUnit k).layers)
          (leds.map (Ledsa.inUnit k))) (o.inUnit k)) rels (.ok (cs.map fun σ l => σ l / k))
        rw [seriesResult_ok_iff, e, List.forall₂_map_right_iff]
        clear hr
        induction hr' with
        | nil => exact .nil
        | cons hx _ ih =>
          refine .cons ?_ (ih fun σ hσ => hb σ (List.mem_cons_of_mem _ hσ))
          have hbx := hb _ (List.mem_cons_self)
          rw [nonlinearImage_rows _ _ _ _ M.length rfl] at hx
          rw [nonlinearImage_rows _ _ _ _ M.length (by simp)]
          simp only [getD_scaled_rows]
          split at hx
          · next hlen =>
            rw [if_pos hlen]
            obtain ⟨σ, hσ, hN⟩ := hx
            cases hσ
            exact ⟨_, rfl, C147_nonlinear_larger k hk hk1 _ o _ _ hN hbx⟩
          · next hlen =>
            rw [if_neg hlen]
            split at hx
            · next h1 => rw [if_pos h1]; trivial
            · cases hx

/-- The claim for the nonlinear solver, with the weights converted. -/
def NonlinearUnitFree : Prop := ∀ (m n : ℕ) (k : ℝ), 0 < k → ∀ (A : Fin m → Fin n → ℝ) (o : NonlinearOptions) (target : Fin m → ℝ) (σ : Fin n → ℝ),
  NearBest A o target σ → NearBest (fun i l => k * A i l) (o.inUnit k) target fun l => σ l / k

/-- **C147 refuted for the nonlinear solver**: smoke of 10 per unit is 20 per two units, above the fixed bound. -/
theorem C147_nonlinear_false : ¬ NonlinearUnitFree := by
  intro h
  have hs : NearBest (fun (_ : Fin 1) (_ : Fin 1) => (1 : ℝ)) ⟨0, 0, 0⟩ (fun _ => Real.exp (-10)) (fun _ => 10) := by
    refine ⟨fun _ => ⟨by norm_num, le_rfl⟩, fun τ _ => ?_⟩
    have h1 : costFunction (fun (_ : Fin 1) (_ : Fin 1) => (1 : ℝ)) 0 0 (fun _ => Real.exp (-10)) (fun _ => 10) = 0 := by
      unfold costFunction rmse curvature preference
      simp [C42_beer_lambert]
    have h2 : 0 ≤ costFunction (fun (_ : Fin 1) (_ : Fin 1) => (1 : ℝ)) 0 0 (fun _ => Real.exp (-10)) τ := by
      unfold costFunction rmse curvature preference
      simp only [mul_zero, add_zero]
      positivity
    show costFunction _ 0 0 _ _ ≤ costFunction _ 0 0 _ _ + 0
    rw [h1]
    linarith
  have := (h 1 1 (1 / 2) (by norm_num) _ _ _ _ hs).1 0
  norm_num at this

/-- A case: smoke of 4 per unit, one LED seen through one layer of thickness 1; in a unit twice as long it is 8. -/
example : NearBest (fun (_ : Fin 1) (_ : Fin 1) => (1 : ℝ) / 2 * 1) (NonlinearOptions.inUnit (1 / 2) ⟨0, 0, 0⟩) (fun _ => Real.exp (-4)) (fun _ => 4 / (1 / 2)) := by
  refine C147_nonlinear_larger (1 / 2) (by norm_num) (by norm_num) (fun _ _ => 1) ⟨0, 0, 0⟩ _ (fun _ => 4) ⟨fun _ => by norm_num, fun τ _ => ?_⟩
    fun _ => by norm_num
  have h1 : costFunction (fun (_ : Fin 1) (_ : Fin 1) => (1 : ℝ)) 0 0 (fun _ => Real.exp (-4)) (fun _ => 4) = 0 := by
    unfold costFunction rmse curvature preference
    simp [C42_beer_lambert]
  have h2 : 0 ≤ costFunction (fun (_ : Fin 1) (_ : Fin 1) => (1 : ℝ)) 0 0 (fun _ => Real.exp (-4)) τ := by
    unfold costFunction rmse curvature preference
    simp only [mul_zero, add_zero]
    positivity
  show costFunction _ 0 0 _ _ ≤ costFunction _ 0 0 _ _ + 0
  rw [h1]
  linarith

end Ledsa
