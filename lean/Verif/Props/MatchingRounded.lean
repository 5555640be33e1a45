import Verif.Props.Matching
/-
Property C133 with the rounding of the distances and ways.
-/
namespace Ledsa

/-- The weighted way in floating point, compared with the exact one, for distances up to `L`. -/
theorem rounded_way (M : Machine) (x y L : ℝ) (hx0 : 0 ≤ x) (hx : x ≤ L) (hy0 : 0 ≤ y) (hy : y ≤ L) :
    |M.rnd (M.rnd (M.rnd (987 / 1000) * M.rnd x) + M.rnd y) - (987 / 1000 * x + y)| ≤ 61 / 10 * (M.u * L) := by
  have hu0 := M.u_nonneg
  have hu1 := M.u_small
  have hL : 0 ≤ L := hx0.trans hx
  set u := M.u
  have huL : 0 ≤ u * L := mul_nonneg hu0 hL
  have huL' : u * L ≤ L / 1000 := by nlinarith
  have e1 : |M.rnd (987 / 1000) - 987 / 1000| ≤ u := by
    have := M.rnd_err (987 / 1000)
    rw [abs_of_pos (by norm_num : (0 : ℝ) < 987 / 1000)] at this
    linarith
  have e2 : |M.rnd x - x| ≤ u * L := by
    have := M.rnd_err x
    rw [abs_of_nonneg hx0] at this
    exact this.trans (mul_le_mul_of_nonneg_left hx hu0)
  have e3 : |M.rnd y - y| ≤ u * L := by
    have := M.rnd_err y
    rw [abs_of_nonneg hy0] at this
    exact this.trans (mul_le_mul_of_nonneg_left hy hu0)
  generalize M.rnd (987 / 1000) = w at e1 ⊢
  generalize M.rnd x = x' at e2 ⊢
  generalize M.rnd y = y' at e3 ⊢
  rw [abs_le] at e1 e2 e3
  have hw0 : 0 ≤ w := by linarith [e1.1]
  have hw1 : w ≤ 1 := by linarith [e1.2]
  -- the product
  have p1 : |w * x' - 987 / 1000 * x| ≤ 2 * (u * L) := by
    have h1 : w * x' - 987 / 1000 * x = w * (x' - x) + (w - 987 / 1000) * x := by ring
    rw [h1]
    have h2 : |w * (x' - x)| ≤ u * L := by
      rw [abs_mul, abs_of_nonneg hw0]
      have : |x' - x| ≤ u * L := abs_le.2 e2
      nlinarith [abs_nonneg (x' - x)]
    have h3 : |(w - 987 / 1000) * x| ≤ u * L := by
      rw [abs_mul, abs_of_nonneg hx0]
      exact mul_le_mul (abs_le.2 e1) hx hx0 hu0
    linarith [abs_add_le (w * (x' - x)) ((w - 987 / 1000) * x)]
  have p2 := M.rnd_err (w * x')
  have hwx : |w * x'| ≤ L + 2 * (u * L) := by
    have h1 := abs_le.1 p1
    rw [abs_le]
    constructor <;> linarith [h1.1, h1.2]
  have p3 : |M.rnd (w * x') - 987 / 1000 * x| ≤ 301 / 100 * (u * L) := by
    have h1 := abs_le.1 p1
    have h2 := abs_le.1 (p2.trans (mul_le_mul_of_nonneg_left hwx hu0))
    have h3 : u * (L + 2 * (u * L)) ≤ 101 / 100 * (u * L) := by nlinarith
    rw [abs_le]
    constructor <;> linarith [h1.1, h1.2, h2.1, h2.2]
  generalize M.rnd (w * x') = t at p3 ⊢
  have p4 := M.rnd_err (t + y')
  have h5 := abs_le.1 p3
  have hs : |t + y'| ≤ 2 * L + 401 / 100 * (u * L) := by
    rw [abs_le]
    constructor <;> linarith [h5.1, h5.2, e3.1, e3.2]
  have h6 := abs_le.1 (p4.trans (mul_le_mul_of_nonneg_left hs hu0))
  have h7 : u * (2 * L + 401 / 100 * (u * L)) ≤ 205 / 100 * (u * L) := by nlinarith
  rw [abs_le]
  constructor <;> linarith [h5.1, h5.2, h6.1, h6.2, e3.1, e3.2]

/-- **C133** in floating point: an array whose LEDs are no farther from a line than an eighteenth of the smallest gap, in a photo of diagonal `L` that is not
so large that the rounding matters. -/
theorem nearlyStraight_rounded (M : Machine) {α : Type} (pos : α → ℤ × ℤ) (all : α → Prop) (chain : List α) (u : ℝ × ℝ) (line δ g L : ℝ)
    (h : NearlyStraight pos all chain u line δ g) (h0 : 0 ≤ δ) (h18 : 18 * δ ≤ g) (hin : ∀ a ∈ chain, all a)
    (hL : ∀ a e, all a → all e → pixelDist (pos a) (pos e) ≤ L) (hu : 20000 * (M.u * L) ≤ g) :
    BestNext (roundedMetric M).dist (roundedMetric M).weight pos all chain := by
  intro pre a b post r hc hr e he hne
  have hg := h.gap_pos
  obtain ⟨h1, h2⟩ := nearlyStraight_margin pos all chain u line δ g h pre a b post r hc hr e he hne
  have hma : all a := hin a (by rw [hc]; simp)
  have hmb : all b := hin b (by rw [hc]; simp)
  have hmr : all r := hin r (by rw [hc]; exact List.mem_append_right _ (List.mem_cons_of_mem _ (List.mem_of_getLast? hr)))
  have hq : 2 * δ ^ 2 / g ≤ g / 162 := by
    rw [div_le_iff₀ hg]
    nlinarith
  have hpos : ∀ p q : ℤ × ℤ, 0 ≤ pixelDist p q := fun p q => Real.sqrt_nonneg _
  have hw := ways_apart pixelDist pixelDist_triangle (987 / 1000) (by norm_num) (pos r) (pos a) (pos b) (pos e)
  constructor
  · show M.rnd (pixelDist (pos a) (pos b)) < M.rnd (pixelDist (pos a) (pos e))
    have e1 := M.rnd_err (pixelDist (pos a) (pos b))
    have e2 := M.rnd_err (pixelDist (pos a) (pos e))
    rw [abs_of_nonneg (hpos _ _)] at e1 e2
    have l1 := mul_le_mul_of_nonneg_left (hL a b hma hmb) M.u_nonneg
    have l2 := mul_le_mul_of_nonneg_left (hL a e hma he) M.u_nonneg
    have e1' := abs_le.1 e1
    have e2' := abs_le.1 e2
    linarith [e1'.2, e2'.1]
  · show M.rnd (M.rnd (M.rnd (987 / 1000) * M.rnd (pixelDist (pos r) (pos b))) + M.rnd (pixelDist (pos a) (pos b))) <
      M.rnd (M.rnd (M.rnd (987 / 1000) * M.rnd (pixelDist (pos r) (pos e))) + M.rnd (pixelDist (pos a) (pos e)))
    have k1 := abs_le.1 (rounded_way M _ _ L (hpos _ _) (hL r b hmr hmb) (hpos _ _) (hL a b hma hmb))
    have k2 := abs_le.1 (rounded_way M _ _ L (hpos _ _) (hL r e hmr he) (hpos _ _) (hL a e hma he))
    linarith [k1.2, k2.1]

/-- The pixels of a photo with `h` rows and `w` columns are no farther apart than `h + w`. -/
theorem pixelDist_size (h w : ℕ) (p q : ℕ × ℕ) (h1 : p.1 < h) (h2 : p.2 < w) (h3 : q.1 < h) (h4 : q.2 < w) :
    pixelDist ((p.1 : ℤ), (p.2 : ℤ)) ((q.1 : ℤ), (q.2 : ℤ)) ≤ h + w := by
  have c1 : (p.1 : ℝ) ≤ h := by exact_mod_cast h1.le
  have c2 : (p.2 : ℝ) ≤ w := by exact_mod_cast h2.le
  have c3 : (q.1 : ℝ) ≤ h := by exact_mod_cast h3.le
  have c4 : (q.2 : ℝ) ≤ w := by exact_mod_cast h4.le
  have d1 : (0 : ℝ) ≤ p.1 := by positivity
  have d2 : (0 : ℝ) ≤ p.2 := by positivity
  have d3 : (0 : ℝ) ≤ q.1 := by positivity
  have d4 : (0 : ℝ) ≤ q.2 := by positivity
  unfold pixelDist
  apply Real.sqrt_le_iff.2
  refine ⟨by positivity, ?_⟩
  have s1 : ((p.1 : ℝ) - q.1) ^ 2 ≤ (h : ℝ) ^ 2 := sq_le_sq' (by linarith) (by linarith)
  have s2 : ((p.2 : ℝ) - q.2) ^ 2 ≤ (w : ℝ) ^ 2 := sq_le_sq' (by linarith) (by linarith)
  push_cast
  nlinarith [mul_nonneg (show (0 : ℝ) ≤ h by positivity) (show (0 : ℝ) ≤ w by positivity)]

/-- **C133** in floating point, for a table of LEDs in a photo with `h` rows and `w` columns. -/
theorem C133_rounded (M : Machine) (h w : ℕ) (table : LedTable) (hids : (table.map (·.1)).Nodup)
    (hin : ∀ e ∈ table, 0 ≤ e.2.1 ∧ e.2.1 < h ∧ 0 ≤ e.2.2 ∧ e.2.2 < w) (chains : List (List (ℕ × ℤ × ℤ))) (ha : ArraysIn table chains)
    (hs : ∀ c ∈ chains, ∃ u line δ g, NearlyStraight (·.2) (· ∈ table) c u line δ g ∧ 0 ≤ δ ∧ 18 * δ ≤ g ∧ 20000 * (M.u * (h + w)) ≤ g) (ignore : Str) :
    matchLeds (roundedMetric M).dist (roundedMetric M).neighbours (roundedMetric M).weight (chains.map edgesOf) ignore table =
      .ok (chains.map fun c => (c.map (·.1)).filter fun (x : ℕ) => (x : ℤ) ∉ ignoredLeds ignore,
        (table.map (·.1)).filter fun x => x ∉ (chains.flatten).map (·.1)) := by
  refine C133_next _ _ (show 0 < 5 by norm_num) _ table hids chains ha ?_ ignore
  intro c hc
  obtain ⟨u, line, δ, g, h1, h2, h3, h4⟩ := hs c hc
  refine nearlyStraight_rounded M _ _ c u line δ g (h + w) h1 h2 h3 (fun a ha' => ha.mem a (List.mem_flatten.2 ⟨c, hc, ha'⟩)) ?_ h4
  intro a e ha' he'
  have hnat : ∀ x ∈ table, ∃ p : ℕ × ℕ, x.2 = ((p.1 : ℤ), (p.2 : ℤ)) ∧ p.1 < h ∧ p.2 < w := by
    intro x hx
    obtain ⟨b1, b2, b3, b4⟩ := hin x hx
    refine ⟨(x.2.1.toNat, x.2.2.toNat), ?_, by omega, by omega⟩
    rw [Int.toNat_of_nonneg b1, Int.toNat_of_nonneg b3]
  obtain ⟨p, hp, p1, p2⟩ := hnat a ha'
  obtain ⟨q, hq, q1, q2⟩ := hnat e he'
  rw [hp, hq]
  exact pixelDist_size h w p q p1 p2 q1 q2

end Ledsa
