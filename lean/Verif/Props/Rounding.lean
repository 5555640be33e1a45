import Verif.Proofs.Rounding

/-!
# The linear analysis in floating point (C124, C125)
-/

open MeasureTheory

namespace Ledsa

namespace Machine

variable (M : Machine)

theorem u_half : M.u ≤ 1 / 2 := M.u_small.trans (by norm_num)

theorem w_half : M.w ≤ 1 / 2 := M.w_small.trans (by norm_num)

theorem abs_rnd (x : ℝ) : Within (2 * M.u) |M.rnd x| |x| := within_abs M.u_nonneg M.u_half (M.rnd_err x)

theorem rnd_sign (x : ℝ) : (0 < M.rnd x ↔ 0 < x) ∧ (M.rnd x < 0 ↔ x < 0) ∧ (M.rnd x = 0 ↔ x = 0) := by
  have h0 := M.rnd_err x
  have hu := M.u_small
  have hu0 := M.u_nonneg
  rcases lt_trichotomy x 0 with h | h | h
  · rw [abs_of_neg h] at h0
    obtain ⟨h1, h2⟩ := abs_le.1 h0
    have : M.rnd x < 0 := by nlinarith
    exact ⟨⟨fun h' => absurd h' (by linarith), fun h' => absurd h' (by linarith)⟩, ⟨fun _ => h, fun _ => this⟩,
      ⟨fun h' => absurd h' this.ne, fun h' => absurd h' h.ne⟩⟩
  · subst h
    simp only [abs_zero, mul_zero, sub_zero, abs_nonpos_iff] at h0
    rw [h0]
    simp
  · rw [abs_of_pos h] at h0
    obtain ⟨h1, h2⟩ := abs_le.1 h0
    have : 0 < M.rnd x := by nlinarith
    exact ⟨⟨fun _ => h, fun _ => this⟩, ⟨fun h' => absurd h' (by linarith), fun h' => absurd h' (by linarith)⟩,
      ⟨fun h' => absurd h' this.ne', fun h' => absurd h' h.ne'⟩⟩

theorem rnd_nonneg {x : ℝ} (h : 0 ≤ x) : 0 ≤ M.rnd x := by
  rw [← not_lt, (M.rnd_sign x).2.1, not_lt]
  exact h

theorem rnd_within {x : ℝ} (h : 0 ≤ x) : Within (2 * M.u) (M.rnd x) x := by
  have := M.abs_rnd x
  rwa [abs_of_nonneg h, abs_of_nonneg (M.rnd_nonneg h)] at this

/-- The square of a rounded difference. -/
theorem square_within (x : ℝ) : Within (4 * M.u + 2 * M.w) (M.square (M.rnd x)) (x ^ 2) := by
  have h1 : Within (2 * M.w) (M.square (M.rnd x)) (M.rnd x ^ 2) :=
    within_of_err M.w_nonneg M.w_half (sq_nonneg _) (M.square_err _)
  have h2 := (M.abs_rnd x).mul (M.abs_rnd x) (abs_nonneg _) (abs_nonneg _)
  rw [← pow_two, ← pow_two, sq_abs, sq_abs] at h2
  have := h2.trans h1
  rwa [show 2 * M.u + 2 * M.u + 2 * M.w = 4 * M.u + 2 * M.w by ring] at this

theorem horizontal_within (cam led : P3) : Within (5 * M.u + M.w) (M.horizontalDist cam led) (Ledsa.horizontalDist cam led) := by
  unfold Machine.horizontalDist Ledsa.horizontalDist
  have h1 := (M.square_within (cam.1 - led.1)).add (M.square_within (cam.2.1 - led.2.1))
  have h2 := (h1.trans (M.rnd_within (h1.nonneg (by positivity)))).sqrt (by positivity)
  have h3 := h2.trans (M.rnd_within (Real.sqrt_nonneg _))
  rwa [show (4 * M.u + 2 * M.w + 2 * M.u) / 2 + 2 * M.u = 5 * M.u + M.w by ring] at h3

theorem abs_arctan (t : ℝ) : |Real.arctan t| = Real.arctan |t| := by
  rcases le_total 0 t with h | h
  · rw [abs_of_nonneg h, abs_of_nonneg (Real.arctan_nonneg.2 h)]
  · rw [abs_of_nonpos h, Real.arctan_neg, abs_of_nonpos (Real.arctan_le_zero.2 h)]

/-- The angle. -/
theorem alpha_within (cam led : P3) (hz : cam.2.2 ≠ led.2.2) :
    ∃ a b, M.alpha cam led = some a ∧ Ledsa.alpha cam led = some b ∧ a ≠ 0 ∧ |b| ≤ Real.pi / 2 ∧
      Within (9 * M.u + 3 * M.w) |a| |b| := by
  have hu0 := M.u_nonneg
  have hw0 := M.w_nonneg
  have hh := M.horizontal_within cam led
  have hd : led.2.2 - cam.2.2 ≠ 0 := sub_ne_zero.2 (Ne.symm hz)
  obtain ⟨s1, s2, s3⟩ := M.rnd_sign (led.2.2 - cam.2.2)
  have hp := Real.pi_pos
  unfold Machine.alpha Ledsa.alpha
  by_cases h0 : Ledsa.horizontalDist cam led = 0
  · rw [if_pos (hh.zero_iff.2 h0), if_pos h0]
    have e1 := M.halfPi_err
    have e2 : Within (2 * M.w) |M.halfPi| (Real.pi / 2) := by
      have := within_abs M.w_nonneg M.w_half (x := M.halfPi) (y := Real.pi / 2) (by rwa [abs_of_pos (by positivity : 0 < Real.pi / 2)])
      rwa [abs_of_pos (by positivity : 0 < Real.pi / 2)] at this
    have e3 : Within (9 * M.u + 3 * M.w) |M.halfPi| (Real.pi / 2) := e2.mono (by positivity) (by linarith)
    have e4 : M.halfPi ≠ 0 := by
      intro h
      rw [h, abs_zero] at e2
      exact absurd (e2.zero_iff.1 rfl) (by positivity)
    rcases lt_or_gt_of_ne hz with h | h
    · rw [if_pos (s1.2 (by linarith)), if_pos h]
      exact ⟨_, _, rfl, rfl, e4, by rw [abs_of_pos (by positivity)], by rw [abs_of_pos (by positivity : 0 < Real.pi / 2)]; exact e3⟩
    · rw [if_neg (by rw [s1]; linarith), if_pos (s2.2 (by linarith)), if_neg (by linarith), if_pos h]
      refine ⟨_, _, rfl, rfl, neg_ne_zero.2 e4, ?_, ?_⟩
      · rw [abs_neg, abs_of_pos (by positivity)]
      · rw [abs_neg, abs_neg, abs_of_pos (by positivity : 0 < Real.pi / 2)]; exact e3
  · rw [if_neg (fun h => h0 (hh.zero_iff.1 h)), if_neg h0]
    have hpos : 0 < Ledsa.horizontalDist cam led := lt_of_le_of_ne (Real.sqrt_nonneg _) (Ne.symm h0)
    have hpos' := hh.pos hpos
    have ht : Within (9 * M.u + M.w) |M.rnd (M.rnd (led.2.2 - cam.2.2) / M.horizontalDist cam led)|
        |(led.2.2 - cam.2.2) / Ledsa.horizontalDist cam led| := by
      have h1 := ((M.abs_rnd (led.2.2 - cam.2.2)).div hh (abs_nonneg _) hpos).trans
        (z := |M.rnd (M.rnd (led.2.2 - cam.2.2) / M.horizontalDist cam led)|) (δ := 2 * M.u) (by
          have := M.abs_rnd (M.rnd (led.2.2 - cam.2.2) / M.horizontalDist cam led)
          rwa [abs_div (M.rnd _), abs_of_pos hpos'] at this)
      rw [abs_div (led.2.2 - cam.2.2), abs_of_pos hpos]
      rwa [show 2 * M.u + (5 * M.u + M.w) + 2 * M.u = 9 * M.u + M.w by ring] at h1
    have ha := (ht.arctan (abs_nonneg _) (by positivity)).trans (z := |M.arctan (M.rnd (M.rnd (led.2.2 - cam.2.2) /
        M.horizontalDist cam led))|) (δ := 2 * M.w) (by
          rw [← abs_arctan]
          exact within_abs M.w_nonneg M.w_half (M.arctan_err _))
    rw [← abs_arctan, show 9 * M.u + M.w + 2 * M.w = 9 * M.u + 3 * M.w by ring] at ha
    refine ⟨_, _, rfl, rfl, ?_, ?_, ha⟩
    · intro h
      rw [h, abs_zero] at ha
      have := ha.zero_iff.1 rfl
      rw [abs_eq_zero, Real.arctan_eq_zero_iff, div_eq_zero_iff] at this
      exact this.elim hd h0
    · rw [abs_le]
      exact ⟨(Real.neg_pi_div_two_lt_arctan _).le, (Real.arctan_lt_pi_div_two _).le⟩

theorem height_within (cz lz bot top : ℝ) :
    Within (2 * M.u) (M.heightInLayer cz lz bot top) (Ledsa.heightInLayer cz lz bot top) := by
  unfold Machine.heightInLayer Ledsa.heightInLayer
  simp only
  generalize min (max cz lz) top - max (min cz lz) bot = h
  by_cases hh : h < 0
  · rw [if_pos ((M.rnd_sign h).2.1.2 hh), if_pos hh]
    exact ⟨by simp, by simp⟩
  · rw [if_neg (by rw [(M.rnd_sign h).2.1]; exact hh), if_neg hh]
    exact M.rnd_within (not_lt.1 hh)

/-- One distance. -/
theorem dist_within (cam led : P3) (hz : cam.2.2 ≠ led.2.2) (a : ℝ) (ha : M.alpha cam led = some a) (bot top : ℝ) :
    Within (22 * M.u + 8 * M.w) |M.rnd (M.heightInLayer cam.2.2 led.2.2 bot top / M.sin a)| (lengthInside cam led bot top) := by
  have hu0 := M.u_nonneg
  have hw0 := M.w_nonneg
  have hu1 := M.u_small
  have hw1 := M.w_small
  obtain ⟨a', b, h1, h2, _, h4, h5⟩ := M.alpha_within cam led hz
  rw [ha] at h1
  obtain rfl := Option.some.inj h1
  obtain ⟨b', g1, _, g3⟩ := sin_alpha cam led hz
  rw [h2] at g1
  obtain rfl := Option.some.inj g1
  have he := euclid_pos cam led hz
  have hsin : Real.sin b ≠ 0 := by
    rw [g3]
    exact div_ne_zero (sub_ne_zero.2 (Ne.symm hz)) he.ne'
  have hpos : 0 < |Real.sin b| := abs_pos.2 hsin
  have hb : Real.sin |b| = |Real.sin b| := by
    rw [Real.abs_sin_eq_sin_abs_of_abs_le_pi (by linarith [Real.pi_pos])]
  have s1 := h5.sin (abs_nonneg b) h4 (by positivity) (by linarith)
  have hs0 : 0 ≤ Real.sin |a| := s1.nonneg (by rw [hb]; exact hpos.le)
  have ha' : Real.sin |a| = |Real.sin a| := by
    rcases le_total 0 a with h | h
    · rw [abs_of_nonneg h] at hs0 ⊢; rw [abs_of_nonneg hs0]
    · rw [abs_of_nonpos h, Real.sin_neg] at hs0 ⊢
      rw [abs_of_nonpos (by linarith)]
  rw [hb, ha'] at s1
  have s2 := s1.trans (within_abs M.w_nonneg M.w_half (M.sin_err a))
  have hh : 0 ≤ Ledsa.heightInLayer cam.2.2 led.2.2 bot top := by rw [heightInLayer_eq]; exact le_max_left _ _
  have ht := M.height_within cam.2.2 led.2.2 bot top
  have hq := (ht.div s2 hh hpos).trans (z := |M.rnd (M.heightInLayer cam.2.2 led.2.2 bot top / M.sin a)|) (δ := 2 * M.u) (by
    have := M.abs_rnd (M.heightInLayer cam.2.2 led.2.2 bot top / M.sin a)
    rwa [abs_div (M.heightInLayer _ _ _ _), abs_of_nonneg (ht.nonneg hh)] at this)
  rw [← dist_eq_lengthInside cam led hz b g3 bot top, abs_div, abs_of_nonneg hh]
  rwa [show 2 * M.u + (2 * (9 * M.u + 3 * M.w) + 2 * M.w) + 2 * M.u = 22 * M.u + 8 * M.w by ring] at hq

end Machine

/-! ### Specification: layers of any heights -/

/-- The layers follow each other from `lo` to `hi`. -/
def Tiles : ℝ → List Layer → ℝ → Prop
  | lo, [], hi => lo = hi
  | lo, l :: ls, hi => l.bottom = lo ∧ l.bottom ≤ l.top ∧ Tiles l.top ls hi

open Classical in
/-- Length of the part of the ray from the camera to the LED that is in the layer. -/
noncomputable def rayIn (cam led : P3) (l : Layer) : ℝ :=
  Ledsa.euclid cam led * ∫ t in (0 : ℝ)..1,
    if l.bottom ≤ cam.2.2 + t * (led.2.2 - cam.2.2) ∧ cam.2.2 + t * (led.2.2 - cam.2.2) < l.top then 1 else 0

theorem rayIn_slanted (cam led : P3) (hz : cam.2.2 ≠ led.2.2) (l : Layer) : rayIn cam led l = lengthInside cam led l.bottom l.top := by
  unfold rayIn lengthInside
  rw [(integral_slice cam led hz l.bottom l.top 1).2, one_mul, mul_comm]

open Classical in
theorem rayIn_horizontal (cam led : P3) (hz : cam.2.2 = led.2.2) (l : Layer) :
    rayIn cam led l = if l.bottom ≤ cam.2.2 ∧ cam.2.2 < l.top then Ledsa.horizontalDist cam led else 0 := by
  unfold rayIn
  rw [euclid_horizontal cam led hz]
  simp only [hz, sub_self, mul_zero, add_zero]
  split_ifs <;> simp

theorem rayIn_nonneg (cam led : P3) (l : Layer) : 0 ≤ rayIn cam led l := by
  classical
  unfold rayIn
  refine mul_nonneg (Real.sqrt_nonneg _) (intervalIntegral.integral_nonneg zero_le_one fun t _ => ?_)
  split_ifs <;> norm_num

theorem tiles_le : ∀ (ls : List Layer) (lo hi : ℝ), Tiles lo ls hi → lo ≤ hi
  | [], _, _, h => le_of_eq h
  | l :: ls, _, hi, h => by
    obtain ⟨h1, h2, h3⟩ := h
    rw [← h1]
    exact h2.trans (tiles_le ls _ hi h3)

theorem tiles_heights (cz lz : ℝ) : ∀ (ls : List Layer) (lo hi : ℝ), Tiles lo ls hi →
    (ls.map fun l => Ledsa.heightInLayer cz lz l.bottom l.top).sum = Ledsa.heightInLayer cz lz lo hi
  | [], lo, hi, h => by
    obtain rfl : lo = hi := h
    rw [heightInLayer_clamp _ _ _ _ le_rfl]
    simp
  | l :: ls, lo, hi, h => by
    obtain ⟨h1, h2, h3⟩ := h
    have h4 := tiles_le ls _ _ h3
    rw [List.map_cons, List.sum_cons, tiles_heights cz lz ls _ hi h3, h1, heightInLayer_clamp _ _ _ _ (by rw [← h1]; exact h2),
      heightInLayer_clamp _ _ _ _ h4, heightInLayer_clamp _ _ _ _ (by rw [← h1]; exact h2.trans h4)]
    ring

open Classical in
theorem tiles_contains (z c : ℝ) : ∀ (ls : List Layer) (lo hi : ℝ), Tiles lo ls hi →
    (ls.map fun l => if l.bottom ≤ z ∧ z < l.top then c else 0).sum = if lo ≤ z ∧ z < hi then c else 0
  | [], lo, hi, h => by
    obtain rfl : lo = hi := h
    rw [if_neg (by intro h; linarith [h.1, h.2])]
    rfl
  | l :: ls, lo, hi, h => by
    obtain ⟨h1, h2, h3⟩ := h
    have h4 := tiles_le ls _ _ h3
    rw [List.map_cons, List.sum_cons, tiles_contains z c ls _ hi h3]
    rw [h1] at h2 ⊢
    rcases lt_or_ge z l.top with h5 | h5
    · rw [if_neg (show ¬ (l.top ≤ z ∧ z < hi) from fun h => absurd h.1 (by linarith)), add_zero]
      by_cases h6 : lo ≤ z
      · rw [if_pos ⟨h6, h5⟩, if_pos ⟨h6, h5.trans_le h4⟩]
      · rw [if_neg (fun h => h6 h.1), if_neg (fun h => h6 h.1)]
    · rw [if_neg (show ¬ (lo ≤ z ∧ z < l.top) from fun h => absurd h.2 (by linarith)), zero_add]
      by_cases h6 : z < hi
      · rw [if_pos ⟨h5, h6⟩, if_pos ⟨h2.trans h5, h6⟩]
      · rw [if_neg (fun h => h6 h.2), if_neg (fun h => h6 h.2)]

/-- The parts of a ray in the domain add up to its length. -/
theorem tiles_rayIn (cam led : P3) (ls : List Layer) (lo hi : ℝ) (hT : Tiles lo ls hi) (hr : RayInDomain cam led lo hi) :
    (ls.map (rayIn cam led)).sum = Ledsa.euclid cam led := by
  classical
  by_cases hz : cam.2.2 = led.2.2
  · rw [show ls.map (rayIn cam led) = ls.map fun l => if l.bottom ≤ cam.2.2 ∧ cam.2.2 < l.top then Ledsa.horizontalDist cam led else 0 from
      List.map_congr_left fun l _ => rayIn_horizontal cam led hz l, tiles_contains _ _ ls lo hi hT, if_pos, euclid_horizontal cam led hz]
    refine ⟨hr.cam_in.1, lt_of_le_of_ne hr.cam_in.2 fun h => hr.top ⟨h, hz ▸ h⟩⟩
  · have hf : ∀ b t, lengthInside cam led b t =
        Ledsa.heightInLayer cam.2.2 led.2.2 b t * (Ledsa.euclid cam led / |led.2.2 - cam.2.2|) := by
      intro b t
      unfold lengthInside
      rw [volume_inside cam led b t hz]
      ring
    rw [show ls.map (rayIn cam led) = ls.map fun l => Ledsa.heightInLayer cam.2.2 led.2.2 l.bottom l.top *
        (Ledsa.euclid cam led / |led.2.2 - cam.2.2|) from
      List.map_congr_left fun l _ => by rw [rayIn_slanted cam led hz l, hf], List.sum_map_mul_right, tiles_heights _ _ ls lo hi hT, ← hf]
    exact lengthInside_full cam led lo hi hr.cam_in hr.led_in

namespace Machine

variable (M : Machine)

/-! ### Sums -/

theorem sum_nonempty {l : List ℝ} {s : ℝ} (h : M.Sum l s) : l ≠ [] := by
  induction h with
  | one x => simp
  | add _ _ hp ih _ =>
    intro h
    rw [h, List.perm_nil, List.append_eq_nil_iff] at hp
    exact ih hp.1

theorem sum_within {l : List ℝ} {s : ℝ} (h : M.Sum l s) (h0 : ∀ x ∈ l, 0 ≤ x) : Within (2 * M.u * (l.length - 1)) s l.sum := by
  have hu := M.u_nonneg
  induction h with
  | one x => simpa using Within.refl x
  | @add l m k a b hl hm hp ih1 ih2 =>
    have hml : ∀ x ∈ l, 0 ≤ x := fun x hx => h0 x (hp.subset (List.mem_append_left _ hx))
    have hmm : ∀ x ∈ m, 0 ≤ x := fun x hx => h0 x (hp.subset (List.mem_append_right _ hx))
    have l1 : (1 : ℝ) ≤ l.length := by exact_mod_cast List.length_pos_iff.2 (M.sum_nonempty hl)
    have m1 : (1 : ℝ) ≤ m.length := by exact_mod_cast List.length_pos_iff.2 (M.sum_nonempty hm)
    have hlen : (k.length : ℝ) = l.length + m.length := by
      rw [← hp.length_eq, List.length_append]; push_cast; ring
    rw [← hp.sum_eq, List.sum_append, hlen]
    have e1 := (ih1 hml).mono (List.sum_nonneg hml) (show 2 * M.u * (l.length - 1) ≤ 2 * M.u * (l.length + m.length - 2) by nlinarith)
    have e2 := (ih2 hmm).mono (List.sum_nonneg hmm) (show 2 * M.u * (m.length - 1) ≤ 2 * M.u * (l.length + m.length - 2) by nlinarith)
    have e3 := e1.add e2
    have e4 := e3.trans (M.rnd_within (e3.nonneg (add_nonneg (List.sum_nonneg hml) (List.sum_nonneg hmm))))
    rwa [show 2 * M.u * (l.length + m.length - 2) + 2 * M.u = 2 * M.u * ((l.length : ℝ) + m.length - 1) by ring] at e4

theorem sum_exists : ∀ l : List ℝ, l ≠ [] → ∃ s, M.Sum l s
  | [], h => absurd rfl h
  | [x], _ => ⟨x, .one x⟩
  | x :: y :: l, _ => by
    obtain ⟨s, hs⟩ := sum_exists (y :: l) (by simp)
    exact ⟨_, .add (.one x) hs (List.Perm.refl _)⟩

theorem forall_sum {γ : ℝ} {l m : List ℝ} (h : List.Forall₂ (Within γ) l m) : Within γ l.sum m.sum := by
  induction h with
  | nil => unfold Within; simp
  | cons h _ ih => simpa using h.add ih

theorem euclid_within (cam led : P3) : Within (6 * M.u + M.w) (M.euclid cam led) (Ledsa.euclid cam led) := by
  have hu := M.u_nonneg
  unfold Machine.euclid Ledsa.euclid
  have h1 := (M.square_within (cam.1 - led.1)).add (M.square_within (cam.2.1 - led.2.1))
  have h2 := (h1.trans (M.rnd_within (h1.nonneg (by positivity)))).add
    ((M.square_within (cam.2.2 - led.2.2)).mono (by positivity) (show _ ≤ 4 * M.u + 2 * M.w + 2 * M.u by linarith))
  have h3 := (h2.trans (M.rnd_within (h2.nonneg (by positivity)))).sqrt (by positivity)
  have h4 := h3.trans (M.rnd_within (Real.sqrt_nonneg _))
  rwa [show (4 * M.u + 2 * M.w + 2 * M.u + 2 * M.u) / 2 + 2 * M.u = 6 * M.u + M.w by ring] at h4

/-- Relative error of a distance. -/
noncomputable def distErr : ℝ := 22 * M.u + 8 * M.w

theorem distErr_nonneg : 0 ≤ M.distErr := by
  have := M.u_nonneg
  have := M.w_nonneg
  unfold distErr
  positivity

theorem distErr_small : M.distErr ≤ 3 / 100 := by
  have := M.u_small
  have := M.w_small
  unfold distErr
  linarith

/-- **C124.** Distances before the check: they exist unless camera and LED are at the same place, and each is the length of the ray in
its layer up to a few roundings, for layers of any heights. -/
theorem C124_raw (cam led : P3) (hne : cam ≠ led) (ls : List Layer) :
    ∃ ds, M.rawDistances cam led ls = some ds ∧ List.Forall₂ (Within M.distErr) ds (ls.map (rayIn cam led)) := by
  classical
  have hu := M.u_nonneg
  have hw := M.w_nonneg
  unfold rawDistances
  by_cases hz : cam.2.2 = led.2.2
  · have hh := M.horizontal_within cam led
    have h0 : Ledsa.horizontalDist cam led ≠ 0 := by
      have := alpha_horizontal cam led hz hne
      intro h0
      unfold Ledsa.alpha at this
      rw [if_pos h0, if_neg (by linarith), if_neg (by linarith)] at this
      cases this
    have ha : M.alpha cam led = some 0 := by
      unfold Machine.alpha
      rw [if_neg (fun h => h0 (hh.zero_iff.1 h)), hz, sub_self, (M.rnd_sign 0).2.2.2 rfl, zero_div, (M.rnd_sign 0).2.2.2 rfl]
      have := M.arctan_err 0
      simp only [Real.arctan_zero, sub_zero, abs_zero, mul_zero, abs_nonpos_iff] at this
      rw [this]
    rw [ha, Option.map_some, if_pos rfl]
    refine ⟨_, rfl, ?_⟩
    unfold Machine.distInPlane
    rw [List.forall₂_map_left_iff, List.forall₂_map_right_iff, List.forall₂_same]
    intro l _
    rw [rayIn_horizontal cam led hz l]
    split_ifs
    · exact hh.mono (Real.sqrt_nonneg _) (by unfold distErr; linarith)
    · unfold Within; simp
  · obtain ⟨a, b, ha, _, ha0, _⟩ := M.alpha_within cam led hz
    rw [ha, Option.map_some, if_neg ha0]
    refine ⟨_, rfl, ?_⟩
    unfold Machine.distNonzeroAlpha
    rw [List.forall₂_map_left_iff, List.forall₂_map_right_iff, List.forall₂_same]
    intro l _
    rw [rayIn_slanted cam led hz l]
    exact M.dist_within cam led hz a ha l.bottom l.top

/-- **C124.** Whatever distances are returned are right: each is the length of the ray in its layer, with the relative error of a few
roundings. -/
theorem C124_distances (cam led : P3) (hne : cam ≠ led) (ls : List Layer) (ds : List ℝ) (h : M.DistResult cam led ls (.dists ds)) :
    List.Forall₂ (fun d l => |d - rayIn cam led l| ≤ (27 * M.u + 10 * M.w) * rayIn cam led l) ds ls := by
  obtain ⟨ds', h1, h2⟩ := M.C124_raw cam led hne ls
  unfold DistResult at h
  rw [h1] at h
  obtain ⟨s, _, h3⟩ := h
  have : ds = ds' := by
    unfold checked at h3
    split_ifs at h3
    exact LayerDists.dists.inj h3
  rw [this]
  rw [List.forall₂_map_right_iff] at h2
  refine h2.imp fun d l h => ?_
  have h0 := M.distErr_nonneg
  have hu := M.u_nonneg
  have hw := M.w_nonneg
  have hn := rayIn_nonneg cam led l
  refine (h.err hn h0 (M.distErr_small.trans (by norm_num))).trans ?_
  apply mul_le_mul_of_nonneg_right _ hn
  unfold distErr
  linarith

/-- **C124.** The check does not reject an LED in the domain because of roundings: with layers that follow each other through the domain
there are distances for every LED in it, if the distance is not astronomical. -/
theorem C124_accepted (cam led : P3) (ls : List Layer) (lo hi : ℝ) (hT : Tiles lo ls hi) (hr : RayInDomain cam led lo hi)
    (hn : 2 * M.u * ls.length + 28 * M.u + 9 * M.w ≤ 1 / 10)
    (hfar : (2 * M.u * ls.length + 28 * M.u + 9 * M.w) * Ledsa.euclid cam led ≤ 8 / 10 ^ 7) :
    (∃ r, M.DistResult cam led ls r) ∧ ∀ r, M.DistResult cam led ls r → ∃ ds, r = .dists ds ∧ ds.length = ls.length := by
  obtain ⟨ds, h1, h2⟩ := M.C124_raw cam led hr.ne ls
  have hu := M.u_nonneg
  have hw := M.w_nonneg
  have hu1 := M.u_small
  have hlen : ds.length = ls.length := by rw [h2.length_eq, List.length_map]
  have hE : 0 ≤ Ledsa.euclid cam led := Real.sqrt_nonneg _
  have hlo : lo < hi := by
    rcases (tiles_le ls lo hi hT).lt_or_eq with h | h
    · exact h
    · exact absurd ⟨le_antisymm hr.cam_in.2 (h ▸ hr.cam_in.1), le_antisymm hr.led_in.2 (h ▸ hr.led_in.1)⟩ hr.top
  have hne : ds ≠ [] := by
    intro h
    rw [h, List.length_nil, eq_comm, List.length_eq_zero_iff] at hlen
    rw [hlen] at hT
    exact hlo.ne hT
  unfold DistResult
  rw [h1]
  simp only
  constructor
  · obtain ⟨s, hs⟩ := M.sum_exists ds hne
    exact ⟨_, s, hs, rfl⟩
  · rintro r ⟨s, hs, rfl⟩
    refine ⟨ds, ?_, hlen⟩
    unfold checked
    rw [if_neg]
    have hd0 : ∀ d ∈ ds, 0 ≤ d := by
      intro d hd
      obtain ⟨i, hi, rfl⟩ := List.mem_iff_getElem.1 hd
      have := List.forall₂_iff_get.1 h2
      have h3 := this.2 i hi (by rw [List.length_map, ← hlen]; exact hi)
      simp only [List.get_eq_getElem, List.getElem_map] at h3
      exact h3.nonneg (rayIn_nonneg _ _ _)
    have a1 := forall_sum h2
    rw [tiles_rayIn cam led ls lo hi hT hr] at a1
    have a2 := a1.trans (M.sum_within hs hd0)
    rw [hlen] at a2
    have a3 := a2.mono hE (show M.distErr + 2 * M.u * (ls.length - 1) ≤ 2 * M.u * ls.length + 22 * M.u + 8 * M.w by unfold distErr; linarith)
    have a4 := a3.err hE (by positivity) (by linarith)
    have a5 := (M.euclid_within cam led).err hE (by positivity) (by nlinarith [(Nat.cast_nonneg ls.length : (0 : ℝ) ≤ _)])
    have a6 : |s - M.euclid cam led| ≤ 12 / 10 * ((2 * M.u * ls.length + 28 * M.u + 9 * M.w) * Ledsa.euclid cam led) := by
      have e : s - M.euclid cam led = (s - Ledsa.euclid cam led) - (M.euclid cam led - Ledsa.euclid cam led) := by ring
      rw [e]
      refine (abs_sub _ _).trans ?_
      nlinarith
    have a7 : |M.rnd (s - M.euclid cam led)| ≤ (1 + M.u) * |s - M.euclid cam led| := by
      have := M.rnd_err (s - M.euclid cam led)
      have h3 := abs_sub_abs_le_abs_sub (M.rnd (s - M.euclid cam led)) (s - M.euclid cam led)
      linarith
    have a8 : (1 - M.u) / 10 ^ 6 ≤ M.rnd (1 / 10 ^ 6) := by
      have := (abs_le.1 (M.rnd_err (1 / 10 ^ 6))).1
      rw [abs_of_pos (by norm_num)] at this
      linarith
    have a9 : (0 : ℝ) ≤ |s - M.euclid cam led| := abs_nonneg _
    rw [gt_iff_lt, not_lt]
    refine a7.trans (le_trans ?_ a8)
    nlinarith

/-! ### Layers -/

theorem tiles_range (b : ℕ → ℝ) : ∀ (n k : ℕ), (∀ i, k ≤ i → i < k + n → b i ≤ b (i + 1)) →
    Tiles (b k) ((List.range' k n).map fun i => (⟨b i, b (i + 1)⟩ : Layer)) (b (k + n))
  | 0, _, _ => rfl
  | n + 1, k, h => by
    rw [List.range'_succ, List.map_cons]
    refine ⟨rfl, h k le_rfl (by omega), ?_⟩
    have := tiles_range b n (k + 1) fun i h1 h2 => h i (by omega) (by omega)
    rwa [show k + 1 + n = k + (n + 1) by omega] at this

theorem step_bounds {x : ℝ} (hx : 0 ≤ x) : (1 - M.u) * x ≤ M.rnd x ∧ M.rnd x ≤ (1 + M.u) * x := by
  have := abs_le.1 (M.rnd_err x)
  rw [abs_of_nonneg hx] at this
  constructor <;> linarith [this.1, this.2]

theorem offset_bounds (lo hi : ℝ) (h : lo ≤ hi) (n i : ℕ) :
    |M.rnd (i * M.rnd (M.rnd (hi - lo) / n)) - i * ((hi - lo) / n)| ≤ 4 * M.u * (i * ((hi - lo) / n)) ∧
      0 ≤ i * ((hi - lo) / n) := by
  have hu := M.u_nonneg
  have hu1 := M.u_small
  have hd : 0 ≤ hi - lo := by linarith
  have i0 : (0 : ℝ) ≤ i := Nat.cast_nonneg i
  have n0 : (0 : ℝ) ≤ (n : ℝ)⁻¹ := inv_nonneg.2 (Nat.cast_nonneg n)
  have h1 := M.step_bounds hd
  have p1 : 0 ≤ M.rnd (hi - lo) := M.rnd_nonneg hd
  have p2 : 0 ≤ M.rnd (hi - lo) / n := div_nonneg p1 (Nat.cast_nonneg n)
  have h2 := M.step_bounds p2
  have p3 : 0 ≤ (i : ℝ) * M.rnd (M.rnd (hi - lo) / n) := mul_nonneg i0 (M.rnd_nonneg p2)
  have h3 := M.step_bounds p3
  have p4 : 0 ≤ i * ((hi - lo) / n) := mul_nonneg i0 (div_nonneg hd (Nat.cast_nonneg n))
  have v0 : 0 ≤ 1 - M.u := by linarith
  have v1 : 0 ≤ 1 + M.u := by linarith
  refine ⟨?_, p4⟩
  set x := i * ((hi - lo) / n) with hx
  have e1 : (1 - M.u) * x ≤ i * (M.rnd (hi - lo) / n) ∧ i * (M.rnd (hi - lo) / n) ≤ (1 + M.u) * x := by
    rw [hx, div_eq_mul_inv, div_eq_mul_inv]
    have := mul_le_mul_of_nonneg_right h1.1 (mul_nonneg i0 n0)
    have := mul_le_mul_of_nonneg_right h1.2 (mul_nonneg i0 n0)
    constructor <;> nlinarith
  have e2 : (1 - M.u) * ((1 - M.u) * x) ≤ i * M.rnd (M.rnd (hi - lo) / n) ∧
      i * M.rnd (M.rnd (hi - lo) / n) ≤ (1 + M.u) * ((1 + M.u) * x) := by
    have a := mul_le_mul_of_nonneg_left h2.1 i0
    have b := mul_le_mul_of_nonneg_left h2.2 i0
    have c := mul_le_mul_of_nonneg_left e1.1 v0
    have d := mul_le_mul_of_nonneg_left e1.2 v1
    constructor <;> nlinarith
  have e3l := mul_le_mul_of_nonneg_left e2.1 v0
  have e3u := mul_le_mul_of_nonneg_left e2.2 v1
  have c1 : (1 + M.u) * ((1 + M.u) * (1 + M.u)) ≤ 1 + 4 * M.u := by
    nlinarith [mul_nonneg hu (sub_nonneg.2 hu1), mul_nonneg (mul_nonneg hu hu) (sub_nonneg.2 hu1)]
  have c2 : 1 - 4 * M.u ≤ (1 - M.u) * ((1 - M.u) * (1 - M.u)) := by
    nlinarith [mul_nonneg hu (sub_nonneg.2 hu1), mul_nonneg (mul_nonneg hu hu) (sub_nonneg.2 hu1)]
  have c3 := mul_le_mul_of_nonneg_right c1 p4
  have c4 := mul_le_mul_of_nonneg_right c2 p4
  rw [abs_le]
  constructor <;> nlinarith [h3.1, h3.2]

/-- **C124.** The layers that are set up follow each other from the bottom to the top of the domain without gaps or overlaps, and their
borders are the equally spaced ones up to a few roundings, if the borders of the domain are numbers of the machine. -/
theorem C124_layers (lo hi : ℝ) (n : ℕ) (hn : 0 < n) (h : lo < hi) (hlo : M.rnd lo = lo) (hhi : M.rnd hi = hi)
    (hsmall : 4 * M.u * n ≤ 1) :
    Tiles lo (M.layers lo hi n) hi ∧ (M.layers lo hi n).length = n ∧
      ∀ i ≤ n, |M.border lo hi n i - (lo + i * ((hi - lo) / n))| ≤ 6 * M.u * (|lo| + |hi|) * 2 := by
  have hu := M.u_nonneg
  have hu1 := M.u_small
  have hd : 0 ≤ hi - lo := by linarith
  have n0 : (0 : ℝ) < n := by exact_mod_cast hn
  have hs : 0 ≤ M.rnd (M.rnd (hi - lo) / n) := M.rnd_nonneg (div_nonneg (M.rnd_nonneg hd) n0.le)
  refine ⟨?_, by simp [layers], ?_⟩
  · have hmono : ∀ i, 0 ≤ i → i < 0 + n → M.border lo hi n i ≤ M.border lo hi n (i + 1) := by
      intro i _ hi'
      rw [zero_add] at hi'
      unfold border
      rw [if_neg hi'.ne]
      by_cases h1 : i + 1 = n
      · rw [if_pos h1]
        have hb := (abs_le.1 (M.offset_bounds lo hi h.le n i).1).2
        have hp := (M.offset_bounds lo hi h.le n i).2
        have key : (1 + 4 * M.u) * (i * ((hi - lo) / n)) ≤ hi - lo := by
          have e : (i : ℝ) = n - 1 := by rw [← h1]; push_cast; ring
          have : (1 + 4 * M.u) * i ≤ n := by rw [e]; nlinarith
          calc (1 + 4 * M.u) * (i * ((hi - lo) / n)) = ((1 + 4 * M.u) * i) * ((hi - lo) / n) := by ring
            _ ≤ n * ((hi - lo) / n) := mul_le_mul_of_nonneg_right this (div_nonneg hd n0.le)
            _ = hi - lo := by field_simp
        have : M.rnd (i * M.rnd (M.rnd (hi - lo) / n)) + lo ≤ hi := by linarith
        exact (M.rnd_mono this).trans hhi.le
      · rw [if_neg h1]
        apply M.rnd_mono
        have : M.rnd (i * M.rnd (M.rnd (hi - lo) / n)) ≤ M.rnd (((i + 1 : ℕ) : ℝ) * M.rnd (M.rnd (hi - lo) / n)) := by
          apply M.rnd_mono
          apply mul_le_mul_of_nonneg_right _ hs
          push_cast; linarith
        linarith
    have hT := tiles_range (M.border lo hi n) n 0 hmono
    rw [zero_add] at hT
    have b0 : M.border lo hi n 0 = lo := by
      unfold border
      rw [if_neg hn.ne, Nat.cast_zero, zero_mul, (M.rnd_sign 0).2.2.2 rfl, zero_add, hlo]
    have bn : M.border lo hi n n = hi := by unfold border; rw [if_pos rfl]
    rw [b0, bn] at hT
    unfold layers
    rw [List.range_eq_range']
    exact hT
  · intro i hin
    have a1 : hi - lo ≤ |lo| + |hi| := by linarith [neg_abs_le lo, le_abs_self hi]
    unfold border
    split_ifs with h1
    · rw [h1, show hi - (lo + n * ((hi - lo) / n)) = 0 by field_simp; ring, abs_zero]
      positivity
    · obtain ⟨hb, hp⟩ := M.offset_bounds lo hi h.le n i
      have hr := M.rnd_err (M.rnd (i * M.rnd (M.rnd (hi - lo) / n)) + lo)
      set y := M.rnd (i * M.rnd (M.rnd (hi - lo) / n))
      set x := i * ((hi - lo) / n) with hx
      have hxd : x ≤ hi - lo := by
        have : (i : ℝ) ≤ n := by exact_mod_cast hin
        calc x ≤ n * ((hi - lo) / n) := mul_le_mul_of_nonneg_right this (div_nonneg hd n0.le)
          _ = hi - lo := by field_simp
      have hy : |y + lo| ≤ 2 * (|lo| + |hi|) := by
        have h1 : |y| ≤ |y - x| + |x| := by
          have := abs_add_le (y - x) x
          rwa [sub_add_cancel] at this
        have h2 := abs_add_le y lo
        rw [abs_of_nonneg hp] at h1
        have : 4 * M.u * x ≤ 4 / 1000 * x := mul_le_mul_of_nonneg_right (by linarith) hp
        have hx2 : 2 * x ≤ 2 * (|lo| + |hi|) := by linarith
        have hx3 : x ≤ |hi| + |lo| := by linarith
        rw [abs_le]
        have hxl : x + lo ≤ hi := by linarith
        constructor
        · linarith [neg_abs_le lo, abs_nonneg hi, (abs_le.1 hb).1, abs_nonneg lo]
        · linarith [le_abs_self hi, (abs_le.1 hb).2, abs_nonneg hi, abs_nonneg lo]
      have e : M.rnd (y + lo) - (lo + x) = (M.rnd (y + lo) - (y + lo)) + (y - x) := by ring
      rw [e]
      refine (abs_add_le _ _).trans ?_
      have := mul_le_mul_of_nonneg_left hy hu
      have := mul_le_mul_of_nonneg_left (hxd.trans a1) hu
      nlinarith [abs_nonneg lo, abs_nonneg hi]

end Machine

end Ledsa
