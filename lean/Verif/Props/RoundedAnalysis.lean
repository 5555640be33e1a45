import Verif.Props.Rounding
import Verif.Proofs.Double

/-!
# The linear analysis of an image in floating point (C125)
-/

namespace Ledsa

open MeasureTheory

/-! ### Specification -/

open Classical in
/-- Optical depth of the straight ray from the camera to the LED through layers of any heights with the coefficients `σ`: the line
integral of the extinction coefficient. -/
noncomputable def rayDepth (cam led : P3) (ls : List Layer) (σ : Fin ls.length → ℝ) : ℝ :=
  euclid cam led * ∫ t in (0 : ℝ)..1, ∑ k : Fin ls.length,
    if ls[k].bottom ≤ cam.2.2 + t * (led.2.2 - cam.2.2) ∧ cam.2.2 + t * (led.2.2 - cam.2.2) < ls[k].top then σ k else 0

theorem rayDepth_eq (cam led : P3) (ls : List Layer) (σ : Fin ls.length → ℝ) :
    rayDepth cam led ls σ = ∑ k : Fin ls.length, rayIn cam led ls[k] * σ k := by
  classical
  unfold rayDepth
  have hc : ∀ b t c : ℝ, IntervalIntegrable (fun s : ℝ =>
      if b ≤ cam.2.2 + s * (led.2.2 - cam.2.2) ∧ cam.2.2 + s * (led.2.2 - cam.2.2) < t then c else 0) volume 0 1 := by
    intro b t c
    by_cases hz : cam.2.2 = led.2.2
    · simp only [hz, sub_self, mul_zero, add_zero]
      exact intervalIntegrable_const
    · exact (integral_slice cam led hz b t c).1
  rw [intervalIntegral.integral_finsetSum fun k _ => hc _ _ _, Finset.mul_sum]
  refine Finset.sum_congr rfl fun k _ => ?_
  unfold rayIn
  rw [mul_assoc]
  congr 1
  rw [mul_comm, ← intervalIntegral.integral_const_mul]
  apply intervalIntegral.integral_congr
  intro t _
  simp only [mul_ite, mul_one, mul_zero]

/-! ### Almost minimal residuals -/

/-- A vector whose residual is the least possible up to `ε` is near every other one, as far as the other residual and `ε` allow. -/
theorem almost_stable {ι : Type} [Fintype ι] {n : ℕ} (B : ι → Fin n → ℝ) (b : ι → ℝ) (x y : Fin n → ℝ) (ε : ℝ) (hε : 0 ≤ ε)
    (hx : ∀ l, 0 ≤ x l) (hy : ∀ l, 0 ≤ y l) (h : ∀ z : Fin n → ℝ, (∀ l, 0 ≤ z l) → residual B b x ≤ residual B b z + ε) :
    Real.sqrt (∑ i, (∑ l, B i l * (x l - y l)) ^ 2) ≤ Real.sqrt (residual B b y) + 2 * Real.sqrt ε := by
  have hR : 0 ≤ residual B b y := residual_nonneg B b y
  rcases hε.lt_or_eq with he | he
  · set u : ι → ℝ := fun i => ∑ l, B i l * x l - b i with hu
    set w : ι → ℝ := fun i => ∑ l, B i l * (x l - y l) with hw
    have hres : ∀ t : ℝ, residual B b (fun l => x l - t * (x l - y l)) =
        (∑ i, u i ^ 2) - 2 * t * (∑ i, u i * w i) + t ^ 2 * ∑ i, w i ^ 2 := by
      intro t
      unfold residual
      rw [Finset.mul_sum, Finset.mul_sum, ← Finset.sum_sub_distrib, ← Finset.sum_add_distrib]
      refine Finset.sum_congr rfl fun i _ => ?_
      have : ∑ l, B i l * (x l - t * (x l - y l)) = ∑ l, B i l * x l - t * w i := by
        rw [hw]
        simp only
        rw [Finset.mul_sum, ← Finset.sum_sub_distrib]
        exact Finset.sum_congr rfl fun l _ => by ring
      rw [this, hu]
      simp only
      ring
    have h0 : residual B b x = ∑ i, u i ^ 2 := rfl
    have hU : 0 ≤ ∑ i, u i ^ 2 := Finset.sum_nonneg fun _ _ => sq_nonneg _
    have h1 : residual B b y = (∑ i, u i ^ 2) - 2 * (∑ i, u i * w i) + ∑ i, w i ^ 2 := by
      have := hres 1
      simp only [one_mul, sub_sub_cancel, mul_one, one_pow] at this
      exact this
    have hW : 0 ≤ ∑ i, w i ^ 2 := Finset.sum_nonneg fun _ _ => sq_nonneg _
    have hmin : ∀ t : ℝ, 0 ≤ t → t ≤ 1 → 0 ≤ - 2 * t * (∑ i, u i * w i) + t ^ 2 * ∑ i, w i ^ 2 + ε := by
      intro t t0 t1
      have := h (fun l => x l - t * (x l - y l)) (fun l => by
        have := mul_nonneg t0 (hy l)
        have := mul_nonneg (sub_nonneg.2 t1) (hx l)
        show 0 ≤ x l - t * (x l - y l)
        linarith)
      rw [hres, h0] at this
      linarith
    generalize residual B b y = R at *
    generalize ∑ i, u i * w i = C at *
    generalize ∑ i, u i ^ 2 = U at *
    generalize ∑ i, w i ^ 2 = W at *
    set r := Real.sqrt W with hr
    set e := Real.sqrt ε with hee
    have e0 : 0 < e := Real.sqrt_pos.2 he
    have r2 : r ^ 2 = W := Real.sq_sqrt hW
    have e2 : e ^ 2 = ε := Real.sq_sqrt hε
    have s0 : 0 ≤ Real.sqrt R := Real.sqrt_nonneg R
    have s2 : Real.sqrt R ^ 2 = R := Real.sq_sqrt hR
    by_contra hlt
    rw [not_le] at hlt
    have r0 : 0 < r := by linarith
    have hm := hmin (e / r) (by positivity) (by rw [div_le_one r0]; linarith)
    rw [← r2, ← e2] at hm
    have hm' : 0 ≤ -2 * C + 2 * e * r := by
      have e1 : -2 * (e / r) * C + (e / r) ^ 2 * r ^ 2 + e ^ 2 = (e / r) * (-2 * C + 2 * e * r) := by
        field_simp
        ring
      rw [e1] at hm
      exact (mul_nonneg_iff_of_pos_left (by positivity)).1 hm
    nlinarith
  · have hmin : IsMinimiser B b x := ⟨hx, fun z hz => by have := h z hz; rw [← he, add_zero] at this; exact this⟩
    have := minimiser_pythagoras B b x hmin y hy
    have h0 := residual_nonneg B b x
    rw [← he, Real.sqrt_zero, mul_zero, add_zero]
    exact Real.sqrt_le_sqrt (by linarith)

/-- If rows of distances determine linear profiles, they and the bending together control the profile. -/
theorem observable_rows {m n : ℕ} (D : Fin m → Fin n → ℝ) (hn : 3 ≤ n) {lam : ℝ} (hlam : 0 < lam)
    (hdet : ∀ τ : Fin n → ℝ, Affine τ → (∀ i, depth τ (D i) = 0) → τ = fun _ => 0) :
    ∃ K : ℝ, 0 < K ∧ ∀ τ : Fin n → ℝ, normSq τ ≤ K * (∑ i, depth τ (D i) ^ 2 + lam * bending τ) := by
  set Q : (Fin n → ℝ) → ℝ := fun τ => ∑ i, depth τ (D i) ^ 2 + lam * bending τ with hQ
  have hcont : Continuous Q := by
    have h1 : Continuous fun τ : Fin n → ℝ => ∑ i, depth τ (D i) ^ 2 := by
      unfold depth
      fun_prop
    have h2 : Continuous fun τ : Fin n → ℝ => bending τ := by
      unfold bending
      fun_prop
    exact h1.add (continuous_const.mul h2)
  have hhom : ∀ (c : ℝ) (τ : Fin n → ℝ), Q (fun k => c * τ k) = c ^ 2 * Q τ := by
    intro c τ
    rw [hQ]
    simp only
    have e1 : bending (fun k => c * τ k) = c ^ 2 * bending τ := by
      unfold bending
      rw [Finset.mul_sum]
      exact Finset.sum_congr rfl fun i _ => by ring
    have e2 : ∑ i, depth (fun k => c * τ k) (D i) ^ 2 = c ^ 2 * ∑ i, depth τ (D i) ^ 2 := by
      rw [Finset.mul_sum]
      refine Finset.sum_congr rfl fun i _ => ?_
      rw [← mul_pow]
      congr 1
      unfold depth
      rw [Finset.mul_sum]
      exact Finset.sum_congr rfl fun k _ => by ring
    rw [e1, e2]
    ring
  have hd0 : ∀ τ, 0 ≤ ∑ i, depth τ (D i) ^ 2 := fun τ => Finset.sum_nonneg fun _ _ => sq_nonneg _
  have hQ0 : ∀ τ, 0 ≤ Q τ := fun τ => add_nonneg (hd0 τ) (mul_nonneg hlam.le (bending_nonneg _))
  have hpos : ∀ τ, normSq τ = 1 → 0 < Q τ := by
    intro τ hτ
    rcases (hQ0 τ).lt_or_eq with h' | h'
    · exact h'
    · exfalso
      have h2 := mul_nonneg hlam.le (bending_nonneg τ)
      have h1 := hd0 τ
      rw [hQ] at h'
      simp only at h'
      have hb : lam * bending τ = 0 := by linarith
      have hs : ∑ i, depth τ (D i) ^ 2 = 0 := by linarith
      have haff : Affine τ := (bending_eq_zero τ).1 ((mul_eq_zero.1 hb).resolve_left hlam.ne')
      rw [Finset.sum_eq_zero_iff_of_nonneg fun i _ => sq_nonneg _] at hs
      have := hdet τ haff fun i => pow_eq_zero_iff two_ne_zero |>.1 (hs i (Finset.mem_univ i))
      rw [this] at hτ
      simp [normSq] at hτ
  have hcn : Continuous fun τ : Fin n → ℝ => normSq τ := by unfold normSq; fun_prop
  have hcomp : IsCompact {τ : Fin n → ℝ | normSq τ = 1} := by
    apply Metric.isCompact_of_isClosed_isBounded
    · exact isClosed_eq hcn continuous_const
    · refine (Metric.isBounded_closedBall (x := (0 : Fin n → ℝ)) (r := 1)).subset ?_
      intro τ hτ
      rw [mem_closedBall_zero_iff, pi_norm_le_iff_of_nonneg zero_le_one]
      intro k
      have h1 : τ k ^ 2 ≤ 1 := by
        rw [← (show normSq τ = 1 from hτ)]
        exact Finset.single_le_sum (f := fun k => τ k ^ 2) (fun k _ => sq_nonneg _) (Finset.mem_univ k)
      rw [Real.norm_eq_abs]
      exact abs_le_one_iff_mul_self_le_one.2 (by nlinarith)
  have hne : {τ : Fin n → ℝ | normSq τ = 1}.Nonempty := by
    refine ⟨fun k => if k = ⟨0, by omega⟩ then 1 else 0, ?_⟩
    show normSq _ = 1
    unfold normSq
    simp
  obtain ⟨τ0, h0, hmin⟩ := hcomp.exists_isMinOn hne hcont.continuousOn
  have hκ := hpos τ0 h0
  have hmain : ∀ τ, normSq τ ≤ (Q τ0)⁻¹ * Q τ := by
    intro τ
    have hnn : 0 ≤ normSq τ := Finset.sum_nonneg fun _ _ => sq_nonneg _
    rcases hnn.lt_or_eq with h' | h'
    · have hs : 0 < Real.sqrt (normSq τ) := Real.sqrt_pos.2 h'
      have hone : normSq (fun k => (Real.sqrt (normSq τ))⁻¹ * τ k) = 1 := by
        have : normSq (fun k => (Real.sqrt (normSq τ))⁻¹ * τ k) = (Real.sqrt (normSq τ))⁻¹ ^ 2 * normSq τ := by
          conv_lhs => unfold normSq
          simp only [mul_pow]
          rw [← Finset.mul_sum]
          rfl
        rw [this, inv_pow, Real.sq_sqrt hnn, inv_mul_cancel₀ h'.ne']
      have := hmin (show (fun k => (Real.sqrt (normSq τ))⁻¹ * τ k) ∈ {τ : Fin n → ℝ | normSq τ = 1} from hone)
      have : Q τ0 ≤ Q (fun k => (Real.sqrt (normSq τ))⁻¹ * τ k) := this
      rw [hhom, inv_pow, Real.sq_sqrt hnn] at this
      rw [inv_mul_eq_div, le_div_iff₀ hκ]
      rw [inv_mul_eq_div, le_div_iff₀ h'] at this
      linarith
    · rw [← h']
      exact mul_nonneg (inv_pos.2 hκ).le (hQ0 τ)
  exact ⟨(Q τ0)⁻¹, inv_pos.2 hκ, hmain⟩

namespace Machine

variable (M : Machine)

/-! ### Means -/

theorem rnd_bound (x : ℝ) : ∃ e, M.rnd x = x + e ∧ |e| ≤ M.u * |x| := ⟨M.rnd x - x, by ring, M.rnd_err x⟩

set_option maxHeartbeats 1000000 in
/-- One step of the compensated sum. -/
theorem kahan_step (k : ℕ) (hk : 100 * M.u * (k + 1) ≤ 1) (s c S x : ℝ) (hS : 0 ≤ S) (hx : 0 ≤ x)
    (h1 : |s - c - S| ≤ (3 * M.u + 10 * k * M.u ^ 2) * S) (h2 : |c| ≤ 3 * M.u * S) :
    |(M.kahanStep (s, c) x).1 - (M.kahanStep (s, c) x).2 - (S + x)| ≤ (3 * M.u + 10 * (k + 1) * M.u ^ 2) * (S + x) ∧
      |(M.kahanStep (s, c) x).2| ≤ 3 * M.u * (S + x) := by
  have hu := M.u_nonneg
  have hu1 := M.u_small
  unfold kahanStep
  simp only
  obtain ⟨d1, q1, b1⟩ := M.rnd_bound (x - c)
  rw [q1]
  obtain ⟨d2, q2, b2⟩ := M.rnd_bound (s + (x - c + d1))
  rw [q2]
  obtain ⟨d3, q3, b3⟩ := M.rnd_bound (s + (x - c + d1) + d2 - s)
  rw [q3]
  obtain ⟨d4, q4, b4⟩ := M.rnd_bound (s + (x - c + d1) + d2 - s + d3 - (x - c + d1))
  rw [q4]
  generalize M.u = u at *
  have k0 : (0 : ℝ) ≤ k := Nat.cast_nonneg k
  have uu : u ^ 2 ≤ u / 1000 := by nlinarith
  have ku : k * u ^ 2 ≤ u / 100 := by nlinarith [mul_nonneg k0 hu]
  have hk2 : 10 * k * u ^ 2 ≤ u := by linarith
  have P1 : (3 * u + 10 * k * u ^ 2) * S ≤ 4 * u * S := mul_le_mul_of_nonneg_right (by linarith) hS
  have uS : u * S ≤ S / 1000 := by nlinarith
  have ux : u * x ≤ x / 1000 := by nlinarith
  have uS0 : 0 ≤ u * S := mul_nonneg hu hS
  have ux0 : 0 ≤ u * x := mul_nonneg hu hx
  obtain ⟨c1, c2⟩ := abs_le.1 h2
  obtain ⟨p1, p2⟩ := abs_le.1 h1
  have s1 : |s| ≤ 101 / 100 * S := by rw [abs_le]; constructor <;> linarith
  -- first rounding
  have a1 : |x - c| ≤ x + 3 * u * S := by rw [abs_le]; constructor <;> linarith
  have e1 : |d1| ≤ u * x + 3 * u ^ 2 * S := b1.trans ((mul_le_mul_of_nonneg_left a1 hu).trans (by linarith))
  have u2S : u ^ 2 * S ≤ u * S / 1000 := by nlinarith
  have u2x : u ^ 2 * x ≤ u * x / 1000 := by nlinarith
  have u2S0 : 0 ≤ u ^ 2 * S := by positivity
  have u2x0 : 0 ≤ u ^ 2 * x := by positivity
  obtain ⟨e11, e12⟩ := abs_le.1 e1
  obtain ⟨s11, s12⟩ := abs_le.1 s1
  -- second rounding
  have a2 : |s + (x - c + d1)| ≤ 111 / 100 * (S + x) := by rw [abs_le]; constructor <;> linarith
  have e2 : |d2| ≤ 111 / 100 * u * (S + x) := b2.trans ((mul_le_mul_of_nonneg_left a2 hu).trans (by linarith))
  obtain ⟨e21, e22⟩ := abs_le.1 e2
  -- third rounding
  have a3 : |s + (x - c + d1) + d2 - s| ≤ 1001 / 1000 * x + 42 / 10 * u * (S + x) := by
    rw [abs_le]; constructor <;> linarith
  have e3 : |d3| ≤ 1001 / 1000 * (u * x) + 42 / 10 * (u ^ 2 * S + u ^ 2 * x) := b3.trans ((mul_le_mul_of_nonneg_left a3 hu).trans (by linarith))
  obtain ⟨e31, e32⟩ := abs_le.1 e3
  -- fourth rounding
  have a4 : |s + (x - c + d1) + d2 - s + d3 - (x - c + d1)| ≤ 22 / 10 * u * (S + x) := by
    rw [abs_le]; constructor <;> linarith
  have e4 : |d4| ≤ 22 / 10 * (u ^ 2 * S + u ^ 2 * x) := b4.trans ((mul_le_mul_of_nonneg_left a4 hu).trans (by linarith))
  obtain ⟨e41, e42⟩ := abs_le.1 e4
  have kx0 : 0 ≤ k * u ^ 2 * x := by positivity
  constructor
  · rw [abs_le]; constructor <;> linarith
  · rw [abs_le]; constructor <;> linarith

/-- The compensated sum of numbers that are not negative. -/
theorem kahan_sum : ∀ (vs : List ℝ) (k : ℕ) (p : ℝ × ℝ) (S : ℝ), (∀ v ∈ vs, 0 ≤ v) → 100 * M.u * (k + vs.length) ≤ 1 → 0 ≤ S →
    |p.1 - p.2 - S| ≤ (3 * M.u + 10 * k * M.u ^ 2) * S → |p.2| ≤ 3 * M.u * S →
    |(vs.foldl M.kahanStep p).1 - (S + vs.sum)| ≤ 7 * M.u * (S + vs.sum)
  | [], k, p, S, _, hk, hS, h1, h2 => by
    have hu := M.u_nonneg
    have hu1 := M.u_small
    rw [List.foldl_nil, List.sum_nil, add_zero]
    have k0 : (0 : ℝ) ≤ k := Nat.cast_nonneg k
    rw [List.length_nil, Nat.cast_zero, add_zero] at hk
    have : k * M.u ^ 2 ≤ M.u / 100 := by nlinarith [mul_nonneg k0 hu]
    have h3 : (3 * M.u + 10 * k * M.u ^ 2) * S ≤ 4 * M.u * S := mul_le_mul_of_nonneg_right (by linarith) hS
    rw [abs_le] at *
    constructor <;> linarith [h1.1, h1.2, h2.1, h2.2]
  | v :: vs, k, p, S, h0, hk, hS, h1, h2 => by
    have hu := M.u_nonneg
    have l0 : (0 : ℝ) ≤ vs.length := Nat.cast_nonneg _
    rw [List.length_cons] at hk
    push_cast at hk
    have hv := h0 v (by simp)
    obtain ⟨a, b⟩ := M.kahan_step k (by nlinarith) p.1 p.2 S v hS hv h1 h2
    have := kahan_sum vs (k + 1) (M.kahanStep p v) (S + v) (fun w hw => h0 w (by simp [hw]))
      (by push_cast; linarith) (by linarith) (by push_cast; exact a) b
    rw [List.foldl_cons, List.sum_cons, ← add_assoc]
    exact this

/-- The mean that is computed is the mean up to a few roundings, for any number of values. -/
theorem mean_within (vs : List ℝ) (h0 : ∀ v ∈ vs, 0 ≤ v) (hk : 100 * M.u * vs.length ≤ 1) :
    Within (16 * M.u) (M.mean vs) (vs.sum / vs.length) := by
  have hu := M.u_nonneg
  have hu1 := M.u_small
  have hS := List.sum_nonneg h0
  have := M.kahan_sum vs 0 (0, 0) 0 h0 (by simpa using hk) le_rfl (by simp) (by simp)
  rw [zero_add] at this
  have h1 := within_of_err (by positivity : 0 ≤ 7 * M.u) (by linarith) hS this
  have hl : (0 : ℝ) ≤ vs.length := Nat.cast_nonneg _
  have h2 : Within (2 * (7 * M.u)) ((vs.foldl M.kahanStep (0, 0)).1 / vs.length) (vs.sum / vs.length) := by
    have hi : (0 : ℝ) ≤ (vs.length : ℝ)⁻¹ := inv_nonneg.2 hl
    constructor
    · rw [div_eq_mul_inv, div_eq_mul_inv, mul_right_comm]
      exact mul_le_mul_of_nonneg_right h1.1 hi
    · rw [div_eq_mul_inv, div_eq_mul_inv, mul_right_comm]
      exact mul_le_mul_of_nonneg_right h1.2 hi
  have h3 := h2.trans (M.rnd_within (h2.nonneg (div_nonneg hS hl)))
  rw [show 2 * (7 * M.u) + 2 * M.u = 16 * M.u by ring] at h3
  exact h3

theorem mean_near {γ y : ℝ} (vs : List ℝ) (hy : 0 < y) (hne : vs ≠ []) (h : ∀ v ∈ vs, Within γ v y) (hk : 100 * M.u * vs.length ≤ 1) :
    Within (γ + 16 * M.u) (M.mean vs) y := by
  have h1 : Within γ (vs.sum / vs.length) y := by
    have := within_mean (List.range vs.length) (fun j _ => vs.getD j y) 0 (by simpa using hne) (y := y) (γ := γ) (by
      intro j hj
      rw [List.mem_range] at hj
      simp only [List.getD_eq_getElem?_getD, List.getElem?_eq_getElem hj, Option.getD_some]
      exact h _ (List.getElem_mem hj))
    unfold meanOver at this
    rw [List.length_range] at this
    have e : (List.range vs.length).map (fun j => vs.getD j y) = vs := by
      apply List.ext_getElem (by simp)
      intro i h1 h2
      simp [List.getElem?_eq_getElem h2]
    rwa [e] at this
  exact h1.trans (M.mean_within vs (fun v hv => ((h v hv).pos hy).le) hk)

/-! ### Optical depths -/

theorem clip_bounds : Real.exp (-24) ≤ M.rnd (1 / 10 ^ 10) ∧ M.rnd (1 / 10 ^ 10) ≤ Real.exp (-23) := by
  have hu := M.u_nonneg
  have hu1 := M.u_small
  have := abs_le.1 (M.rnd_err (1 / 10 ^ 10))
  rw [abs_of_pos (by norm_num : (0 : ℝ) < 1 / 10 ^ 10)] at this
  have h1 := Real.exp_one_gt_d9
  have h2 := Real.exp_one_lt_d9
  constructor
  · rw [Real.exp_neg, inv_le_comm₀ (Real.exp_pos _) (by linarith)]
    have h3 : (2 : ℝ) * 10 ^ 10 ≤ Real.exp 24 := by
      rw [show (24 : ℝ) = (24 : ℕ) * 1 by norm_num, Real.exp_nat_mul]
      calc (2 : ℝ) * 10 ^ 10 ≤ 2.7182818283 ^ 24 := by norm_num
        _ ≤ _ := by gcongr
    refine le_trans ?_ h3
    rw [inv_le_comm₀ (by linarith) (by norm_num)]
    linarith
  · rw [Real.exp_neg, le_inv_comm₀ (by linarith) (Real.exp_pos _)]
    have h3 : Real.exp 23 ≤ 99 / 100 * 10 ^ 10 := by
      rw [show (23 : ℝ) = (23 : ℕ) * 1 by norm_num, Real.exp_nat_mul]
      calc Real.exp 1 ^ 23 ≤ 2.7182818286 ^ 23 := by gcongr
        _ ≤ _ := by norm_num
    refine h3.trans ?_
    rw [le_inv_comm₀ (by norm_num) (by linarith)]
    linarith

theorem opticalDepth_err {γ x t : ℝ} (h0 : 0 ≤ t) (h1 : t ≤ 23) (hγ : 0 ≤ γ) (h : Within γ x (Real.exp (-t))) :
    |M.opticalDepth x - t| ≤ γ + 24 * M.w := by
  have hw := M.w_nonneg
  have hx := h.pos (Real.exp_pos _)
  have hl := h.log (Real.exp_pos _)
  rw [Real.log_exp, sub_neg_eq_add] at hl
  obtain ⟨c1, c2⟩ := M.clip_bounds
  unfold Machine.opticalDepth
  set c := M.rnd (1 / 10 ^ 10)
  have c0 : 0 < c := lt_of_lt_of_le (Real.exp_pos _) c1
  have hc1 : Real.log c ≤ -23 := by rw [← Real.log_exp (-23)]; exact Real.log_le_log c0 c2
  have hc2 : -24 ≤ Real.log c := by rw [← Real.log_exp (-24)]; exact Real.log_le_log (Real.exp_pos _) c1
  set y := min (max x c) 1 with hy
  have y0 : 0 < y := lt_min (lt_max_of_lt_left hx) one_pos
  have hly : Real.log y ≤ 0 := Real.log_nonpos y0.le (min_le_right _ _)
  have hcle : c ≤ 1 := c2.trans (by rw [Real.exp_le_one_iff]; norm_num)
  have hly2 : -24 ≤ Real.log y := hc2.trans (Real.log_le_log c0 (le_min (le_max_right _ _) hcle))
  have near : |Real.log y + t| ≤ γ := by
    rw [abs_le] at hl ⊢
    constructor
    · have : Real.exp (-γ - t) ≤ y := by
        apply le_min
        · apply le_max_of_le_left
          rw [← Real.exp_log hx]
          exact Real.exp_le_exp.2 (by linarith)
        · rw [Real.exp_le_one_iff]; linarith
      have := Real.log_le_log (Real.exp_pos _) this
      rw [Real.log_exp] at this
      linarith
    · rcases le_total x c with hxc | hxc
      · have : Real.log y ≤ Real.log c := Real.log_le_log y0 ((min_le_left _ _).trans (max_le hxc le_rfl))
        linarith
      · have : Real.log y ≤ Real.log x := Real.log_le_log y0 ((min_le_left _ _).trans (max_le le_rfl hxc))
        linarith
  have le := M.log_err y
  have hab : |Real.log y| ≤ 24 := by rw [abs_of_nonpos hly]; linarith
  have e : -M.log y - t = -((M.log y - Real.log y) + (Real.log y + t)) := by ring
  rw [e, abs_neg]
  refine (abs_add_le _ _).trans ?_
  have := mul_le_mul_of_nonneg_left hab hw
  linarith

/-! ### The matrix -/

theorem rnd_zero : M.rnd 0 = 0 := (M.rnd_sign 0).2.2.2 rfl

/-- The entries of the regularisation are exact multiples of the rounded root. -/
theorem aug_reg {m n : ℕ} (A : Fin m → Fin n → ℝ) (lam : ℝ) (i : Fin (regRows n)) (l : Fin n) :
    M.augMatrix A lam (.inr i) l = Ledsa.augMatrix A ((M.rnd (Real.sqrt lam)) ^ 2) (.inr i) l := by
  have h0 : 0 ≤ M.rnd (Real.sqrt lam) := M.rnd_nonneg (Real.sqrt_nonneg _)
  simp only [Machine.augMatrix, Ledsa.augMatrix, Real.sqrt_sq h0]
  unfold regEntry
  split_ifs
  · rw [mul_one, M.rnd_idem]
  · rw [show M.rnd (Real.sqrt lam) * -2 = -(2 * M.rnd (Real.sqrt lam)) by ring, M.rnd_neg, M.rnd_double, M.rnd_idem]
  · rw [mul_one, M.rnd_idem]
  · rw [mul_zero, M.rnd_zero]
  · rw [mul_one, M.rnd_idem]
  · rw [mul_zero, M.rnd_zero]

theorem aug_eq {m n : ℕ} (A : Fin m → Fin n → ℝ) (lam : ℝ) : M.augMatrix A lam = Ledsa.augMatrix A ((M.rnd (Real.sqrt lam)) ^ 2) := by
  funext i l
  cases i with
  | inl i => rfl
  | inr i => exact M.aug_reg A lam i l

theorem root_bound {lam : ℝ} (hl : 0 ≤ lam) : (M.rnd (Real.sqrt lam)) ^ 2 ≤ (1 + 3 * M.u) * lam := by
  have hu := M.u_nonneg
  have hu1 := M.u_small
  have h := (M.step_bounds (Real.sqrt_nonneg lam)).2
  calc (M.rnd (Real.sqrt lam)) ^ 2 ≤ ((1 + M.u) * Real.sqrt lam) ^ 2 := by
        have := M.rnd_nonneg (Real.sqrt_nonneg lam)
        gcongr
    _ = (1 + M.u) ^ 2 * lam := by rw [mul_pow, Real.sq_sqrt hl]
    _ ≤ _ := mul_le_mul_of_nonneg_right (by nlinarith) hl

/-! ### The analysis of an image -/

/-- One image of the LEDs at `pos`: `refs` are the intensities of each LED in the reference images and `v` those in the image; the
LEDs send `emit` through smoke with the coefficients `σ`, and the intensities are right up to the factor `exp γ`. -/
structure SmokyImage {m : ℕ} (cam : P3) (ls : List Layer) (lo hi : ℝ) (pos : Fin m → P3) (emit : Fin m → ℝ) (σ : Fin ls.length → ℝ)
    (γ : ℝ) (refs : Fin m → List ℝ) (v : Fin m → ℝ) : Prop where
  tiles : Tiles lo ls hi
  three : 3 ≤ ls.length
  rays : ∀ i, RayInDomain cam (pos i) lo hi
  emits : ∀ i, 0 < emit i
  nonneg : ∀ k, 0 ≤ σ k
  thin : ∀ i, rayDepth cam (pos i) ls σ ≤ 23
  error : 0 ≤ γ
  reference : ∀ i, refs i ≠ [] ∧ ∀ r ∈ refs i, Within γ r (emit i)
  light : ∀ i, Within γ (v i) (emit i * Real.exp (-rayDepth cam (pos i) ls σ))

/-- The entry of the distance matrix. -/
def entry (n : ℕ) (ds : List ℝ) (k : Fin n) : ℝ := ds.getD k 0

theorem rows_within (cam led : P3) (hne : cam ≠ led) (ls : List Layer) (ds : List ℝ) (h : M.DistResult cam led ls (.dists ds))
    (σ : Fin ls.length → ℝ) (hσ : ∀ k, 0 ≤ σ k) : Within M.distErr (depth σ (entry ls.length ds)) (rayDepth cam led ls σ) := by
  rw [rayDepth_eq]
  unfold depth
  apply Within.sum
  intro k _
  obtain ⟨ds', h1, h2⟩ := M.C124_raw cam led hne ls
  have : ds = ds' := by
    unfold DistResult at h
    rw [h1] at h
    obtain ⟨s, _, h3⟩ := h
    unfold checked at h3
    split_ifs at h3
    exact LayerDists.dists.inj h3
  rw [this]
  obtain ⟨hlen, hget⟩ := List.forall₂_iff_get.1 h2
  rw [List.length_map] at hlen
  have hk : (k : ℕ) < ds'.length := by rw [hlen]; exact k.2
  have h3 := hget k hk (by rw [List.length_map]; exact k.2)
  simp only [List.get_eq_getElem, List.getElem_map] at h3
  have e : entry ls.length ds' k = ds'[(k : ℕ)] := by
    unfold entry
    rw [List.getD_eq_getElem?_getD, List.getElem?_eq_getElem hk, Option.getD_some]
  rw [e]
  constructor
  · rw [mul_right_comm]
    exact mul_le_mul_of_nonneg_right h3.1 (hσ k)
  · rw [mul_right_comm]
    exact mul_le_mul_of_nonneg_right h3.2 (hσ k)

theorem rayDepth_nonneg (cam led : P3) (ls : List Layer) (σ : Fin ls.length → ℝ) (hσ : ∀ k, 0 ≤ σ k) : 0 ≤ rayDepth cam led ls σ := by
  rw [rayDepth_eq]
  exact Finset.sum_nonneg fun k _ => mul_nonneg (rayIn_nonneg _ _ _) (hσ k)

/-- Errors of the intensities of `m` LEDs, of the smoothing and of the minimiser together. -/
noncomputable def imageErr {n : ℕ} (m : ℕ) (γ lam ε : ℝ) (σ : Fin n → ℝ) : ℝ :=
  Real.sqrt (m * (2 * γ + 640 * M.u + 250 * M.w) ^ 2 + (1 + 3 * M.u) * lam * bending σ) + 2 * Real.sqrt ε

theorem root_below {lam : ℝ} (hl : 0 ≤ lam) : lam ≤ 101 / 100 * (M.rnd (Real.sqrt lam)) ^ 2 := by
  have hu := M.u_nonneg
  have hu1 := M.u_small
  have h := (M.step_bounds (Real.sqrt_nonneg lam)).1
  have h2 : ((1 - M.u) * Real.sqrt lam) ^ 2 ≤ (M.rnd (Real.sqrt lam)) ^ 2 := by
    have : 0 ≤ (1 - M.u) * Real.sqrt lam := mul_nonneg (by linarith) (Real.sqrt_nonneg _)
    gcongr
  rw [mul_pow, Real.sq_sqrt hl] at h2
  have h3 : 100 / 101 * lam ≤ (1 - M.u) ^ 2 * lam := mul_le_mul_of_nonneg_right (by nlinarith) hl
  linarith

/-- **C125.** The linear analysis of an image with all its roundings: the coefficients that are found give the optical depth of every
ray as the true ones do, up to the errors of the intensities, the bending of the true profile that the regularisation smooths, the
accuracy of the minimiser, and some hundred roundings. -/
theorem C125_depths {m : ℕ} (cam : P3) (ls : List Layer) (lo hi : ℝ) (pos : Fin m → P3) (emit : Fin m → ℝ) (σ : Fin ls.length → ℝ)
    (γ : ℝ) (refs : Fin m → List ℝ) (v : Fin m → ℝ) (h : SmokyImage cam ls lo hi pos emit σ γ refs v)
    (hrefs : ∀ i, 100 * M.u * (refs i).length ≤ 1) (ds : Fin m → List ℝ) (hds : ∀ i, M.DistResult cam (pos i) ls (.dists (ds i)))
    (lam ε : ℝ) (hlam : 0 ≤ lam) (hε : 0 ≤ ε) (x : Fin ls.length → ℝ)
    (hx : M.Solution (fun i => entry ls.length (ds i)) lam ε (fun i => M.relIntensity (refs i) (v i)) x) :
    (∀ k, 0 ≤ x k) ∧ (∀ i, |rayDepth cam (pos i) ls x - rayDepth cam (pos i) ls σ| ≤
      104 / 100 * M.imageErr m γ lam ε σ + 1260 * M.u + 460 * M.w) ∧
      lam * bending (fun k => x k - σ k) ≤ 101 / 100 * M.imageErr m γ lam ε σ ^ 2 := by
  have hu := M.u_nonneg
  have hw := M.w_nonneg
  have hη := M.distErr_nonneg
  have hη1 := M.distErr_small
  have hηdef : M.distErr = 22 * M.u + 8 * M.w := rfl
  set A : Fin m → Fin ls.length → ℝ := fun i => entry ls.length (ds i) with hA
  have hrow : ∀ (i : Fin m) (τ : Fin ls.length → ℝ), (∀ k, 0 ≤ τ k) → Within M.distErr (depth τ (A i)) (rayDepth cam (pos i) ls τ) :=
    fun i τ hτ => M.rows_within cam (pos i) (h.rays i).ne ls (ds i) (hds i) τ hτ
  have hσ0 : ∀ i, 0 ≤ rayDepth cam (pos i) ls σ := fun i => rayDepth_nonneg cam (pos i) ls σ h.nonneg
  -- the right side
  have hb : ∀ i, |M.opticalDepth (M.relIntensity (refs i) (v i)) - rayDepth cam (pos i) ls σ| ≤ 2 * γ + 18 * M.u + 24 * M.w := by
    intro i
    have h1 := M.mean_near (refs i) (h.emits i) (h.reference i).1 (h.reference i).2 (hrefs i)
    have h2 := (h.light i).div h1 (mul_nonneg (h.emits i).le (Real.exp_pos _).le) (h.emits i)
    rw [mul_div_cancel_left₀ _ (h.emits i).ne'] at h2
    have h3 := h2.trans (M.rnd_within (h2.nonneg (Real.exp_pos _).le))
    have h4 := M.opticalDepth_err (hσ0 i) (h.thin i) (by have := h.error; positivity) h3
    unfold relIntensity
    refine h4.trans ?_
    linarith
  have hd : ∀ i, |depth σ (A i) - rayDepth cam (pos i) ls σ| ≤ 28 * M.distErr := by
    intro i
    refine ((hrow i σ h.nonneg).err (hσ0 i) hη (hη1.trans (by norm_num))).trans ?_
    have := mul_le_mul_of_nonneg_left (h.thin i) hη
    nlinarith
  -- the minimum
  have hstab := almost_stable _ _ x σ ε hε hx.nonneg h.nonneg hx.almost
  set lam' := (M.rnd (Real.sqrt lam)) ^ 2 with hlam'
  have hl0 : 0 ≤ lam' := sq_nonneg _
  have hres : residual (M.augMatrix A lam) (M.augRhs ls.length fun i => M.relIntensity (refs i) (v i)) σ ≤
      m * (2 * γ + 640 * M.u + 250 * M.w) ^ 2 + (1 + 3 * M.u) * lam * bending σ := by
    rw [M.aug_eq]
    unfold residual
    rw [Fintype.sum_sum_type]
    apply add_le_add
    · have : ∀ i : Fin m, (∑ l, Ledsa.augMatrix A lam' (.inl i) l * σ l -
          M.augRhs ls.length (fun i => M.relIntensity (refs i) (v i)) (.inl i)) ^ 2 ≤ (2 * γ + 640 * M.u + 250 * M.w) ^ 2 := by
        intro i
        have e : ∑ l, Ledsa.augMatrix A lam' (.inl i) l * σ l = depth σ (A i) := rfl
        rw [e]
        simp only [Machine.augRhs]
        apply sq_le_sq'
        · have a := (abs_le.1 (hb i)).2
          have b := (abs_le.1 (hd i)).1
          linarith
        · have a := (abs_le.1 (hb i)).1
          have b := (abs_le.1 (hd i)).2
          linarith
      refine (Finset.sum_le_sum fun i _ => this i).trans ?_
      simp
    · have : ∑ i, (∑ l, Ledsa.augMatrix A lam' (.inr i) l * σ l -
          M.augRhs ls.length (fun i => M.relIntensity (refs i) (v i)) (.inr i)) ^ 2 = lam' * bending σ := by
        rw [← reg_sum A h.three hl0]
        exact Finset.sum_congr rfl fun i _ => by simp [Machine.augRhs]
      rw [this]
      exact mul_le_mul_of_nonneg_right (M.root_bound hlam) (bending_nonneg σ)
  set E := M.imageErr m γ lam ε σ with hEdef
  have hE : 0 ≤ E := by rw [hEdef]; unfold imageErr; positivity
  have hall : Real.sqrt (∑ j, (∑ l, M.augMatrix A lam j l * (x l - σ l)) ^ 2) ≤ E :=
    hstab.trans (add_le_add (Real.sqrt_le_sqrt hres) le_rfl)
  refine ⟨hx.nonneg, fun i => ?_, ?_⟩
  swap
  · have h1 := (Real.sqrt_le_left hE).1 hall
    rw [Fintype.sum_sum_type, M.aug_eq, reg_sum A h.three hl0] at h1
    have h2 : 0 ≤ ∑ i : Fin m, (∑ l, Ledsa.augMatrix A lam' (.inl i) l * (x l - σ l)) ^ 2 := Finset.sum_nonneg fun _ _ => sq_nonneg _
    have h3 := mul_le_mul_of_nonneg_right (M.root_below hlam) (bending_nonneg fun k => x k - σ k)
    linarith
  have hdiff : |depth x (A i) - depth σ (A i)| ≤ E := by
    refine le_trans ?_ hall
    rw [← Real.sqrt_sq_eq_abs]
    apply Real.sqrt_le_sqrt
    have e : depth x (A i) - depth σ (A i) = ∑ l, M.augMatrix A lam (.inl i) l * (x l - σ l) := by
      unfold depth
      rw [← Finset.sum_sub_distrib]
      exact Finset.sum_congr rfl fun l _ => by simp only [Machine.augMatrix]; ring
    rw [e]
    exact Finset.single_le_sum (f := fun j => (∑ l, M.augMatrix A lam j l * (x l - σ l)) ^ 2) (fun _ _ => sq_nonneg _) (Finset.mem_univ (Sum.inl i))
  -- back to the rays
  have hx0 : 0 ≤ depth x (A i) := (hrow i x hx.nonneg).nonneg (rayDepth_nonneg cam (pos i) ls x hx.nonneg)
  have hback := (hrow i x hx.nonneg).symm.err hx0 hη (hη1.trans (by norm_num))
  have hds' := (hrow i σ h.nonneg).err (hσ0 i) hη (hη1.trans (by norm_num))
  have ht := h.thin i
  set a := rayDepth cam (pos i) ls x
  set b := rayDepth cam (pos i) ls σ
  set c := depth x (A i)
  set d := depth σ (A i)
  have h28 : 12 / 10 * M.distErr * b ≤ 12 / 10 * M.distErr * 23 := mul_le_mul_of_nonneg_left ht (by positivity)
  have hc : c ≤ 24 + E := by
    have := (abs_le.1 hdiff).2
    have := (abs_le.1 hds').2
    linarith
  have h29 : 12 / 10 * M.distErr * c ≤ 12 / 10 * M.distErr * (24 + E) := mul_le_mul_of_nonneg_left hc (by positivity)
  have h30 : 12 / 10 * M.distErr * E ≤ 36 / 1000 * E := mul_le_mul_of_nonneg_right (by linarith) hE
  have e : a - b = (a - c) + (c - d) + (d - b) := by ring
  rw [e]
  refine (abs_add_le _ _).trans ?_
  have := abs_add_le (a - c) (c - d)
  linarith

theorem rayDepth_sub (cam led : P3) (ls : List Layer) (σ τ : Fin ls.length → ℝ) :
    rayDepth cam led ls (fun k => σ k - τ k) = rayDepth cam led ls σ - rayDepth cam led ls τ := by
  rw [rayDepth_eq, rayDepth_eq, rayDepth_eq, ← Finset.sum_sub_distrib]
  exact Finset.sum_congr rfl fun k _ => by ring

/-- **C125.** The coefficients themselves: where the rays determine linear profiles, a constant that depends only on the geometry and the
regularisation, not on the machine, bounds the errors of the coefficients by those of the optical depths. -/
theorem C125_coefficients {m : ℕ} (cam : P3) (ls : List Layer) (pos : Fin m → P3) (h3 : 3 ≤ ls.length) (lam : ℝ) (hlam : 0 < lam)
    (hdet : ∀ σ τ : Fin ls.length → ℝ, Affine σ → Affine τ →
      (∀ i, rayDepth cam (pos i) ls σ = rayDepth cam (pos i) ls τ) → σ = τ) :
    ∃ K : ℝ, 0 < K ∧ ∀ (M : Machine) (lo hi : ℝ) (emit : Fin m → ℝ) (σ : Fin ls.length → ℝ)
      (γ : ℝ) (refs : Fin m → List ℝ) (v : Fin m → ℝ), SmokyImage cam ls lo hi pos emit σ γ refs v →
      (∀ i, 100 * M.u * (refs i).length ≤ 1) → ∀ ds : Fin m → List ℝ, (∀ i, M.DistResult cam (pos i) ls (.dists (ds i))) →
      ∀ ε, 0 ≤ ε → ∀ x : Fin ls.length → ℝ,
      M.Solution (fun i => entry ls.length (ds i)) lam ε (fun i => M.relIntensity (refs i) (v i)) x →
      ∑ k, (x k - σ k) ^ 2 ≤ K * (M.imageErr m γ lam ε σ + 1220 * M.u + 450 * M.w) ^ 2 := by
  obtain ⟨K, hK, hobs⟩ := observable_rows (fun (i : Fin m) (k : Fin ls.length) => rayIn cam (pos i) ls[k]) h3 hlam (by
    intro τ hτ h0
    apply hdet τ (fun _ => 0) hτ ⟨0, 0, fun _ => by simp⟩
    intro i
    rw [rayDepth_eq, rayDepth_eq]
    simp only [mul_zero, Finset.sum_const_zero]
    exact h0 i)
  refine ⟨K * (11 / 10 * (m + 1)), by positivity, ?_⟩
  intro M lo hi emit σ γ refs v h hrefs ds hds ε hε x hx
  obtain ⟨_, h1, h2⟩ := M.C125_depths cam ls lo hi pos emit σ γ refs v h hrefs ds hds lam ε hlam.le hε x hx
  have hu := M.u_nonneg
  have hw := M.w_nonneg
  have hE : 0 ≤ M.imageErr m γ lam ε σ := by unfold imageErr; positivity
  set E := M.imageErr m γ lam ε σ
  set T := E + 1220 * M.u + 450 * M.w with hT
  have hT0 : 0 ≤ T := by positivity
  have hET : E ^ 2 ≤ T ^ 2 := by
    apply pow_le_pow_left₀ hE
    linarith
  have hone : ∀ i, depth (fun k => x k - σ k) (fun k => rayIn cam (pos i) ls[k]) ^ 2 ≤ (104 / 100) ^ 2 * T ^ 2 := by
    intro i
    have e : depth (fun k => x k - σ k) (fun k => rayIn cam (pos i) ls[k]) = rayDepth cam (pos i) ls x - rayDepth cam (pos i) ls σ := by
      rw [← rayDepth_sub, rayDepth_eq]
      rfl
    rw [e, ← mul_pow]
    have := abs_le.1 (h1 i)
    apply sq_le_sq' <;> linarith [this.1, this.2]
  have hsum : ∑ i : Fin m, depth (fun k => x k - σ k) (fun k => rayIn cam (pos i) ls[k]) ^ 2 ≤ m * ((104 / 100) ^ 2 * T ^ 2) := by
    refine (Finset.sum_le_sum fun i _ => hone i).trans ?_
    simp
  have hm : (0 : ℝ) ≤ m := Nat.cast_nonneg m
  have := hobs fun k => x k - σ k
  unfold normSq at this
  refine this.trans ?_
  rw [mul_assoc K]
  apply mul_le_mul_of_nonneg_left _ hK.le
  have hmT : 0 ≤ m * T ^ 2 := by positivity
  nlinarith

/-- **C125.** There is always something for the solver to return. -/
theorem C125_exists {m n : ℕ} (A : Fin m → Fin n → ℝ) (lam ε : ℝ) (hε : 0 < ε) (rel : Fin m → ℝ) : ∃ x, M.Solution A lam ε rel x := by
  set S : Set ℝ := {r | ∃ y : Fin n → ℝ, (∀ l, 0 ≤ y l) ∧ residual (M.augMatrix A lam) (M.augRhs n rel) y = r} with hS
  have hne : S.Nonempty := ⟨_, fun _ => 0, fun _ => le_rfl, rfl⟩
  have hbd : BddBelow S := ⟨0, by rintro r ⟨y, _, rfl⟩; exact residual_nonneg _ _ _⟩
  obtain ⟨r, ⟨x, hx, hr⟩, hlt⟩ := exists_lt_of_csInf_lt hne (show sInf S < sInf S + ε by linarith)
  refine ⟨x, hx, fun y hy => ?_⟩
  have := csInf_le hbd ⟨y, hy, rfl⟩
  rw [hr]
  linarith

end Machine

/-! ### Double precision -/

/-- **C124.** In double precision the distances have a relative error below 5·10⁻¹⁵, and the check accepts every LED in a domain of up
to a million layers and a kilometre. -/
theorem C124_double (cam led : P3) (ls : List Layer) (lo hi : ℝ) (hT : Tiles lo ls hi) (hr : RayInDomain cam led lo hi)
    (hn : ls.length ≤ 10 ^ 6) (hfar : euclid cam led ≤ 1000) :
    (∃ r, double.DistResult cam led ls r) ∧ ∀ r, double.DistResult cam led ls r → ∃ ds, r = .dists ds ∧
      List.Forall₂ (fun d l => |d - rayIn cam led l| ≤ 5 / 10 ^ 15 * rayIn cam led l) ds ls := by
  have hu : double.u = (1 / 2) ^ 53 := rfl
  have hw : double.w = (1 / 2) ^ 53 := rfl
  have hn' : (ls.length : ℝ) ≤ 10 ^ 6 := by exact_mod_cast hn
  have h0 : (0 : ℝ) ≤ ls.length := Nat.cast_nonneg _
  have hs : 2 * double.u * ls.length + 28 * double.u + 9 * double.w ≤ 8 / 10 ^ 10 := by
    rw [hu, hw]
    norm_num
    linarith
  have hs0 : 0 ≤ 2 * double.u * ls.length + 28 * double.u + 9 * double.w := by rw [hu, hw]; positivity
  have hE : 0 ≤ euclid cam led := Real.sqrt_nonneg _
  obtain ⟨h1, h2⟩ := double.C124_accepted cam led ls lo hi hT hr (hs.trans (by norm_num)) (by
    calc _ ≤ 8 / 10 ^ 10 * 1000 := mul_le_mul hs hfar hE (by norm_num)
      _ = 8 / 10 ^ 7 := by norm_num)
  refine ⟨h1, fun r hr' => ?_⟩
  obtain ⟨ds, rfl, _⟩ := h2 r hr'
  refine ⟨ds, rfl, (double.C124_distances cam led hr.ne ls ds hr').imp fun d l h => h.trans ?_⟩
  apply mul_le_mul_of_nonneg_right _ (rayIn_nonneg _ _ _)
  rw [hu, hw]
  norm_num

/-- **C125.** In double precision the roundings of a whole analysis change no optical depth by more than a few 10⁻¹³ per LED. -/
theorem C125_double {m : ℕ} (cam : P3) (ls : List Layer) (lo hi : ℝ) (pos : Fin m → P3) (emit : Fin m → ℝ) (σ : Fin ls.length → ℝ)
    (γ : ℝ) (refs : Fin m → List ℝ) (v : Fin m → ℝ) (h : Machine.SmokyImage cam ls lo hi pos emit σ γ refs v)
    (hrefs : ∀ i, (refs i).length ≤ 10 ^ 13) (ds : Fin m → List ℝ) (hds : ∀ i, double.DistResult cam (pos i) ls (.dists (ds i)))
    (lam ε : ℝ) (hlam : 0 ≤ lam) (hε : 0 ≤ ε) (x : Fin ls.length → ℝ)
    (hx : double.Solution (fun i => Machine.entry ls.length (ds i)) lam ε (fun i => double.relIntensity (refs i) (v i)) x) (i : Fin m) :
    |rayDepth cam (pos i) ls x - rayDepth cam (pos i) ls σ| ≤
      104 / 100 * (Real.sqrt (m * (2 * γ + 1 / 10 ^ 13) ^ 2 + (1 + 1 / 10 ^ 15) * lam * bending σ) + 2 * Real.sqrt ε) + 2 / 10 ^ 13 := by
  have hu : double.u = (1 / 2) ^ 53 := rfl
  have hw : double.w = (1 / 2) ^ 53 := rfl
  have hγ := h.error
  refine ((double.C125_depths cam ls lo hi pos emit σ γ refs v h (fun i => ?_) ds hds lam ε hlam hε x hx).2.1 i).trans ?_
  · have : ((refs i).length : ℝ) ≤ 10 ^ 13 := by exact_mod_cast hrefs i
    rw [hu]
    norm_num
    linarith
  · have hb := bending_nonneg σ
    have hlb := mul_nonneg hlam hb
    have h1 : double.imageErr m γ lam ε σ ≤
        Real.sqrt (m * (2 * γ + 1 / 10 ^ 13) ^ 2 + (1 + 1 / 10 ^ 15) * lam * bending σ) + 2 * Real.sqrt ε := by
      unfold Machine.imageErr
      apply add_le_add _ le_rfl
      apply Real.sqrt_le_sqrt
      apply add_le_add
      · apply mul_le_mul_of_nonneg_left _ (Nat.cast_nonneg m)
        apply pow_le_pow_left₀ (by rw [hu, hw]; positivity)
        rw [hu, hw]
        norm_num
        linarith
      · rw [mul_assoc, mul_assoc]
        apply mul_le_mul_of_nonneg_right _ hlb
        rw [hu]
        norm_num
    have h2 : 1260 * double.u + 460 * double.w ≤ 2 / 10 ^ 13 := by rw [hu, hw]; norm_num
    linarith

/-! ### Examples -/

theorem rayIn_height (cam led : P3) (hz : cam.2.2 ≠ led.2.2) (l : Layer) :
    rayIn cam led l = heightInLayer cam.2.2 led.2.2 l.bottom l.top * (euclid cam led / |led.2.2 - cam.2.2|) := by
  rw [rayIn_slanted cam led hz]
  unfold lengthInside
  rw [volume_inside cam led l.bottom l.top hz]
  ring

/-- Two layers of different heights: the ray to (3, 0, 4) is 5 m long, 3.75 m of it in the upper layer. -/
example (r : LayerDists) (h : double.DistResult (0, 0, 0) (3, 0, 4) [⟨0, 1⟩, ⟨1, 4⟩] r) :
    ∃ a b, r = .dists [a, b] ∧ |a - 5 / 4| ≤ 1 / 10 ^ 13 ∧ |b - 15 / 4| ≤ 1 / 10 ^ 13 := by
  have hE : euclid (0, 0, 0) (3, 0, 4) = 5 := by
    unfold euclid
    rw [show ((0 : ℝ) - 3) ^ 2 + (0 - 0) ^ 2 + (0 - 4) ^ 2 = 5 ^ 2 by norm_num]
    exact Real.sqrt_sq (by norm_num)
  have hr : RayInDomain (0, 0, 0) (3, 0, 4) 0 4 := ⟨by simp, by norm_num, by norm_num, by norm_num⟩
  obtain ⟨_, h2⟩ := C124_double (0, 0, 0) (3, 0, 4) [⟨0, 1⟩, ⟨1, 4⟩] 0 4 (by simp [Tiles]) hr (by norm_num) (by rw [hE]; norm_num)
  obtain ⟨ds, rfl, h3⟩ := h2 r h
  have e1 : rayIn (0, 0, 0) (3, 0, 4) ⟨0, 1⟩ = 5 / 4 := by
    rw [rayIn_height _ _ (by norm_num), hE, heightInLayer_clamp _ _ _ _ (by norm_num)]
    norm_num
  have e2 : rayIn (0, 0, 0) (3, 0, 4) ⟨1, 4⟩ = 15 / 4 := by
    rw [rayIn_height _ _ (by norm_num), hE, heightInLayer_clamp _ _ _ _ (by norm_num)]
    norm_num
  cases h3 with
  | @cons a _ ds' _ ha h4 =>
    cases h4 with
    | @cons b _ ds'' _ hb h5 =>
      cases h5
      rw [e1] at ha
      rw [e2] at hb
      exact ⟨a, b, rfl, ha.trans (by norm_num), hb.trans (by norm_num)⟩

/-- Three layers from 0.5 m to 2 m in double precision have no gaps. -/
example : Tiles (1 / 2) (double.layers (1 / 2) 2 3) 2 :=
  (double.C124_layers (1 / 2) 2 3 (by norm_num) (by norm_num)
    (by have := roundDouble_exact 1 (-1) (by norm_num); norm_num at this; exact this)
    (by have := roundDouble_exact 2 0 (by norm_num); norm_num at this; exact this)
    (by show 4 * (1 / 2 : ℝ) ^ 53 * (3 : ℕ) ≤ 1; norm_num)).1

/-- Three layers of one metre. -/
def threeLayers : List Layer := [⟨0, 1⟩, ⟨1, 2⟩, ⟨2, 3⟩]

/-- An LED beside the camera and one above it. -/
def twoLeds (i : Fin 2) : P3 := if i = 0 then (1, 0, 0) else (0, 0, 3)

/-- Smoke that becomes denser upwards. -/
def denser (k : Fin 3) : ℝ := 1 + 1 * ((k : ℕ) : ℝ)

theorem twoLeds_depths (σ : Fin 3 → ℝ) : rayDepth (0, 0, 0) (twoLeds 0) threeLayers σ = σ 0 ∧
    rayDepth (0, 0, 0) (twoLeds 1) threeLayers σ = σ 0 + σ 1 + σ 2 := by
  have hE : euclid (0, 0, 0) (0, 0, 3) = 3 := by
    unfold euclid
    rw [show ((0 : ℝ) - 0) ^ 2 + (0 - 0) ^ 2 + (0 - 3) ^ 2 = 3 ^ 2 by norm_num]
    exact Real.sqrt_sq (by norm_num)
  constructor
  · refine (rayDepth_eq (0, 0, 0) (1, 0, 0) threeLayers σ).trans ?_
    show ∑ k : Fin 3, _ = _
    rw [Fin.sum_univ_three]
    show rayIn (0, 0, 0) (1, 0, 0) ⟨0, 1⟩ * σ 0 + rayIn (0, 0, 0) (1, 0, 0) ⟨1, 2⟩ * σ 1 + rayIn (0, 0, 0) (1, 0, 0) ⟨2, 3⟩ * σ 2 = _
    simp only [rayIn_horizontal (0, 0, 0) (1, 0, 0) rfl]
    unfold horizontalDist
    norm_num
  · refine (rayDepth_eq (0, 0, 0) (0, 0, 3) threeLayers σ).trans ?_
    show ∑ k : Fin 3, _ = _
    rw [Fin.sum_univ_three]
    have h : ∀ l ∈ threeLayers, rayIn (0, 0, 0) (0, 0, 3) l = 1 := by
      intro l hl
      rw [rayIn_height _ _ (by norm_num), hE]
      simp only [threeLayers, List.mem_cons, List.not_mem_nil, or_false] at hl
      rcases hl with rfl | rfl | rfl <;> (rw [heightInLayer_clamp _ _ _ _ (by norm_num)]; norm_num)
    show rayIn (0, 0, 0) (0, 0, 3) ⟨0, 1⟩ * σ 0 + rayIn (0, 0, 0) (0, 0, 3) ⟨1, 2⟩ * σ 1 + rayIn (0, 0, 0) (0, 0, 3) ⟨2, 3⟩ * σ 2 = _
    rw [h ⟨0, 1⟩ (by simp [threeLayers]), h ⟨1, 2⟩ (by simp [threeLayers]), h ⟨2, 3⟩ (by simp [threeLayers])]
    ring

theorem twoLeds_image : Machine.SmokyImage (0, 0, 0) threeLayers 0 3 twoLeds (fun _ => 100) denser 0 (fun _ => [100, 100])
    (fun i => 100 * Real.exp (-rayDepth (0, 0, 0) (twoLeds i) threeLayers denser)) where
  tiles := by simp [threeLayers, Tiles]; norm_num
  three := by simp [threeLayers]
  rays i := by
    fin_cases i
    · exact ⟨by simp [twoLeds], by norm_num, by simp [twoLeds], by norm_num⟩
    · exact ⟨by simp [twoLeds], by norm_num, by simp [twoLeds], by norm_num⟩
  emits _ := by norm_num
  nonneg k := by unfold denser; positivity
  thin i := by
    fin_cases i
    · show rayDepth (0, 0, 0) (twoLeds 0) threeLayers denser ≤ 23
      rw [(twoLeds_depths denser).1]
      norm_num [denser]
    · show rayDepth (0, 0, 0) (twoLeds 1) threeLayers denser ≤ 23
      rw [(twoLeds_depths denser).2]
      norm_num [denser, threeLayers]
  error := le_rfl
  reference _ := ⟨by simp, fun r hr => by
    have : r = 100 := by simpa using hr
    rw [this]
    exact Within.refl _⟩
  light _ := Within.refl _

/-- The optical depth 6 of the upper LED is found up to 10⁻⁹ in double precision, if the residual of the minimiser is accurate to 10⁻²⁰. -/
example (ds : Fin 2 → List ℝ) (hds : ∀ i, double.DistResult (0, 0, 0) (twoLeds i) threeLayers (.dists (ds i))) (x : Fin 3 → ℝ)
    (hx : double.Solution (fun i => Machine.entry threeLayers.length (ds i)) 1 (1 / 10 ^ 20) (fun i => double.relIntensity [100, 100]
      (100 * Real.exp (-rayDepth (0, 0, 0) (twoLeds i) threeLayers denser))) x) :
    |x 0 + x 1 + x 2 - 6| ≤ 1 / 10 ^ 9 := by
  have h := C125_double (0, 0, 0) threeLayers 0 3 twoLeds (fun _ => 100) denser 0 (fun _ => [100, 100]) _ twoLeds_image
    (fun _ => by norm_num) ds hds 1 (1 / 10 ^ 20) (by norm_num) (by norm_num) x hx 1
  have hb : bending (n := threeLayers.length) denser = 0 := (bending_eq_zero _).2 ⟨1, 1, fun _ => rfl⟩
  rw [(twoLeds_depths x).2, (twoLeds_depths denser).2, hb] at h
  rw [show denser 0 + denser 1 + denser 2 = 6 by norm_num [denser, threeLayers]] at h
  refine h.trans ?_
  have h1 : Real.sqrt (1 / 10 ^ 20) ≤ 1 / 10 ^ 10 := (Real.sqrt_le_left (by norm_num)).2 (by norm_num)
  have h2 : Real.sqrt (((2 : ℕ) : ℝ) * (2 * 0 + 1 / 10 ^ 13) ^ 2 + (1 + 1 / 10 ^ 15) * 1 * 0) ≤ 1 / 10 ^ 12 :=
    (Real.sqrt_le_left (by norm_num)).2 (by norm_num)
  linarith

end Ledsa
