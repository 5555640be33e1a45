import Verif.Model.SavedNumbers
import Verif.Proofs.Extraction
import Verif.Proofs.Double
/-
C155: numbers survive the files of extinction coefficients.
-/
namespace Ledsa

/-- The number a text with mantissa of `d + 1` digits and exponent stands for. -/
def sciValD (d : ℕ) (q : ℚ) : ℚ := (if q < 0 then -1 else 1) * (((sciPartsD d |q|).1 : ℚ) * (10 : ℚ) ^ ((sciPartsD d |q|).2 - d))

theorem log_ten_bounds {q : ℚ} (h : 0 < q) (d : ℕ) :
    (10 : ℚ) ^ d * 10 ^ (Int.log 10 q - d) ≤ q ∧ q < (10 : ℚ) ^ (d + 1) * 10 ^ (Int.log 10 q - d) := by
  have h1 : (10 : ℚ) ^ Int.log 10 q ≤ q := by
    have := Int.zpow_log_le_self (b := 10) (by decide) h
    simpa using this
  have h2 : q < (10 : ℚ) ^ (Int.log 10 q + 1) := by
    have := Int.lt_zpow_succ_log_self (b := 10) (by decide) q
    simpa using this
  constructor
  · rw [← zpow_natCast, ← zpow_add₀ (by norm_num)]
    rwa [show (d : ℤ) + (Int.log 10 q - d) = Int.log 10 q by ring]
  · rw [← zpow_natCast, ← zpow_add₀ (by norm_num)]
    rwa [show ((d + 1 : ℕ) : ℤ) + (Int.log 10 q - d) = Int.log 10 q + 1 by push_cast; ring]

theorem sciPartsD_spec (d : ℕ) (q : ℚ) (h : 0 < q) :
    10 ^ d ≤ (sciPartsD d q).1 ∧ (sciPartsD d q).1 < 10 ^ (d + 1) ∧
    ((sciPartsD d q).1 : ℚ) * (10 : ℚ) ^ ((sciPartsD d q).2 - d) = rne (q / (10 : ℚ) ^ (Int.log 10 q - d)) * (10 : ℚ) ^ (Int.log 10 q - d) := by
  obtain ⟨h1, h2⟩ := log_ten_bounds h d
  set e := Int.log 10 q with he
  have hp : (0 : ℚ) < 10 ^ (e - d) := by positivity
  have hm1 : (10 ^ d : ℤ) ≤ rne (q / 10 ^ (e - d)) := by
    have := rne_mono ((le_div_iff₀ hp).2 h1)
    rwa [show (10 : ℚ) ^ d = ((10 ^ d : ℤ) : ℚ) by norm_num, rne_int] at this
  have hm2 : rne (q / 10 ^ (e - d)) ≤ (10 ^ (d + 1) : ℤ) := by
    have := rne_mono ((div_le_iff₀ hp).2 h2.le)
    rwa [show (10 : ℚ) ^ (d + 1) = ((10 ^ (d + 1) : ℤ) : ℚ) by norm_num, rne_int] at this
  have hp0 : (0 : ℤ) < 10 ^ d := by positivity
  have hcasti : (((rne (q / 10 ^ (e - d))).toNat : ℕ) : ℤ) = rne (q / 10 ^ (e - d)) := Int.toNat_of_nonneg (by omega)
  have hcast : (((rne (q / 10 ^ (e - d))).toNat : ℕ) : ℚ) = rne (q / 10 ^ (e - d)) := by exact_mod_cast hcasti
  unfold sciPartsD
  rw [if_neg h.ne']
  simp only [← he]
  split
  · rename_i hm
    refine ⟨le_rfl, Nat.pow_lt_pow_right (by norm_num) (by omega), ?_⟩
    have : rne (q / 10 ^ (e - d)) = (10 ^ (d + 1) : ℤ) := by
      rw [← hcasti, hm]; push_cast; rfl
    rw [this]
    push_cast
    rw [show e + 1 - (d : ℤ) = 1 + (e - d) by ring, zpow_add₀ (by norm_num), pow_succ]
    norm_num
    ring
  · rename_i hm
    refine ⟨?_, ?_, ?_⟩
    · simp only; zify; rw [hcasti]; exact hm1
    · simp only
      apply lt_of_le_of_ne _ hm
      zify; rw [hcasti]; exact hm2
    · simp only [hcast]

/-- A text with `d + 1` digits is at most half a unit of the last digit off. -/
theorem sciValD_near (d : ℕ) (q : ℚ) : |sciValD d q - q| ≤ |q| / (2 * 10 ^ d) := by
  rcases eq_or_ne q 0 with rfl | hq
  · simp [sciValD, sciPartsD]
  have ha : 0 < |q| := abs_pos.2 hq
  obtain ⟨_, _, h3⟩ := sciPartsD_spec d |q| ha
  obtain ⟨h1, _⟩ := log_ten_bounds ha d
  set e := Int.log 10 |q| with he
  have hp : (0 : ℚ) < 10 ^ (e - d) := by positivity
  have hd : (0 : ℚ) < 10 ^ d := by positivity
  have hn := rne_near (|q| / 10 ^ (e - d))
  have hv : |(rne (|q| / 10 ^ (e - d)) : ℚ) * 10 ^ (e - d) - (|q|)| ≤ |q| / (2 * 10 ^ d) := by
    have : (rne (|q| / 10 ^ (e - d)) : ℚ) * 10 ^ (e - d) - |q| = ((rne (|q| / 10 ^ (e - d)) : ℚ) - |q| / 10 ^ (e - d)) * 10 ^ (e - d) := by
      field_simp
    rw [this, abs_mul, abs_of_pos hp]
    calc _ ≤ 1 / 2 * (10 : ℚ) ^ (e - d) := mul_le_mul_of_nonneg_right hn hp.le
      _ ≤ |q| / (2 * 10 ^ d) := by
        rw [le_div_iff₀ (by positivity)]
        linarith
  unfold sciValD
  rw [h3]
  split
  · rename_i hneg
    have hgen : ∀ a b : ℚ, b = -q → (-1 : ℚ) * a - q = -(a - b) := by rintro a b rfl; ring
    rw [hgen _ |q| (abs_of_neg hneg), abs_neg]; exact hv
  · rename_i hneg
    have hq' : |q| = q := abs_of_nonneg (not_lt.1 hneg)
    rw [hq'] at hv ⊢
    rw [one_mul]; exact hv

theorem fmtSciD_chars (d : ℕ) (q : ℚ) : ∀ c ∈ fmtSciD d q, isNumChar c = true := by
  intro c hc
  unfold fmtSciD at hc
  simp only [List.append_assoc, List.cons_append, List.mem_append, List.mem_cons] at hc
  rcases hc with hc | hc | rfl | hc | rfl | hc
  · split at hc
    · rw [List.mem_singleton.1 hc]; decide
    · cases hc
  · exact isNumChar_digit (natStr_isDigit _ c hc)
  · decide
  · exact isNumChar_digit (zfill_natStr_isDigit _ _ c hc)
  · decide
  · exact expText_chars _ c hc

theorem readUnsigned_digitsD (k : ℕ) (A : Str) (a b : ℕ) (hA : ∀ c ∈ A, isDigit c = true) (hne : A ≠ []) (hv : digitsVal 0 A = some a)
    (hb : b < 10 ^ (k + 1)) (e : ℤ) :
    readUnsigned (A ++ '.' :: zfill (k + 1) (natStr b) ++ 'e' :: expText e) =
      some (((a * 10 ^ (k + 1) + b : ℕ) : ℚ) * (10 : ℚ) ^ (e - (k + 1 : ℕ))) := by
  have hnum : ∀ c ∈ A ++ '.' :: zfill (k + 1) (natStr b), c ≠ 'e' := by
    intro c hc
    rw [List.mem_append, List.mem_cons] at hc
    rcases hc with hc | rfl | hc
    · exact isDigit_ne (hA c hc) 'e' (by decide)
    · decide
    · exact isDigit_ne (zfill_natStr_isDigit _ _ c hc) 'e' (by decide)
  have hexp : 'e' ∉ expText e := by
    intro h
    unfold expText at h
    rcases List.mem_cons.1 h with h | h
    · revert h; split <;> decide
    · exact absurd (zfill_natStr_isDigit _ _ _ h) (by decide)
  unfold readUnsigned
  rw [splitChar_append (fun h => hnum _ h rfl), splitChar_of_notMem hexp]
  simp only
  have hdec : readDecimal (A ++ '.' :: zfill (k + 1) (natStr b)) = some (((a * 10 ^ (k + 1) + b : ℕ) : ℚ) / 10 ^ (k + 1)) := by
    unfold readDecimal
    rw [splitChar_append (notMem_of_isDigit hA (by decide)),
      splitChar_of_notMem (notMem_of_isDigit (zfill_natStr_isDigit _ _) (by decide))]
    simp only
    have hz : zfill (k + 1) (natStr b) ≠ [] := by
      intro h
      have := zfill_natStr_length k b hb
      rw [h] at this
      cases this
    rw [if_neg (by simp [hne, hz]), parseNat_digits_append A a b k hne hv hb, zfill_natStr_length k _ hb]
    simp only [Option.map_some]
  rw [hdec, readExp_expText]
  simp only [Option.some.injEq]
  rw [zpow_sub₀ (by norm_num : (10 : ℚ) ≠ 0), zpow_natCast]
  ring

theorem readUnsigned_sciD (k m : ℕ) (e : ℤ) :
    readUnsigned (natStr (m / 10 ^ (k + 1)) ++ '.' :: zfill (k + 1) (natStr (m % 10 ^ (k + 1))) ++ 'e' :: expText e) =
      some ((m : ℚ) * (10 : ℚ) ^ (e - (k + 1 : ℕ))) := by
  rw [readUnsigned_digitsD k _ (m / 10 ^ (k + 1)) (m % 10 ^ (k + 1)) (natStr_isDigit _) (natStr_ne_nil _) (digitsVal_natStr _)
    (Nat.mod_lt _ (by positivity)) e, Nat.div_add_mod']

/-- A number written with digits after the point is read as `sciValD`. -/
theorem readFloat_fmtSciD (k : ℕ) (q : ℚ) : readFloat (fmtSciD (k + 1) q) = some (sciValD (k + 1) q) := by
  unfold readFloat
  rw [strip_eq_self fun c hc => isWs_isNumChar (fmtSciD_chars (k + 1) q c hc)]
  unfold fmtSciD sciValD
  split
  · rename_i t h
    split
    · rename_i hq
      rw [if_pos hq] at h
      rw [List.append_assoc, List.append_assoc] at h
      have ht := (List.cons.inj h).2
      rw [← ht]
      have := readUnsigned_sciD k (sciPartsD (k + 1) |q|).1 (sciPartsD (k + 1) |q|).2
      rw [List.append_assoc] at this
      erw [this]
      simp
    · rename_i hq
      rw [if_neg hq] at h
      exfalso
      rw [List.nil_append, List.append_assoc] at h
      cases hn : natStr ((sciPartsD (k + 1) |q|).1 / 10 ^ (k + 1)) with
      | nil => exact natStr_ne_nil _ hn
      | cons c cs =>
        rw [hn] at h
        have hc := natStr_isDigit _ c (by rw [hn]; simp)
        rw [(List.cons.inj h).1] at hc
        exact absurd hc (by decide)
  · rename_i t h
    exfalso
    split at h
    · exact absurd (List.cons.inj h).1 (by decide)
    · rw [List.nil_append, List.append_assoc] at h
      cases hn : natStr ((sciPartsD (k + 1) |q|).1 / 10 ^ (k + 1)) with
      | nil => exact natStr_ne_nil _ hn
      | cons c cs =>
        rw [hn] at h
        have hc := natStr_isDigit _ c (by rw [hn]; simp)
        rw [(List.cons.inj h).1] at hc
        exact absurd hc (by decide)
  · rename_i h1 h2
    split
    · rename_i hq
      exfalso
      rw [if_pos hq] at h1
      exact h1 _ rfl
    · rename_i hq
      rw [List.nil_append, readUnsigned_sciD, one_mul]

/-! ### Seventeen digits identify a floating point number -/

/-- A number with 53 binary digits. -/
def IsDouble (q : ℚ) : Prop := ∃ k e : ℤ, |k| ≤ 2 ^ 53 ∧ q = k * (2 : ℚ) ^ e

theorem round_near {x : ℝ} {n : ℤ} (h : |x - n| < 1 / 2) : round x = n := by
  rw [round_eq, Int.floor_eq_iff]
  rw [abs_lt] at h
  constructor <;> linarith [h.1, h.2]

theorem roundPos_near {x v : ℝ} (hx : 0 < x) (hr : roundPos x = x) (h : |v - x| ≤ x / (2 * 10 ^ 16)) : roundPos v = x := by
  obtain ⟨b1, b2⟩ := log_two_bounds hx
  set s := spacing x with hs0
  have hs : 0 < s := spacing_pos x
  set n := round (x / s) with hn
  have hxn : x = n * s := by rw [← hr]; conv_rhs => rw [hn, hs0]
                             rw [hr]; exact hr.symm
  have e1 : (2 : ℝ) ^ Int.log 2 x = (2 : ℝ) ^ 52 * s := by rw [hs0, spacing_mul]; norm_num
  have e2 : (2 : ℝ) ^ (Int.log 2 x + 1) = (2 : ℝ) ^ 53 * s := by rw [hs0, spacing_mul]; norm_num
  rw [e1] at b1
  rw [e2] at b2
  have n2 : n < 2 ^ 53 := by
    have : (n : ℝ) < 2 ^ 53 := by
      rw [hxn] at b2
      exact lt_of_mul_lt_mul_right b2 hs.le
    exact_mod_cast this
  have n1 : 2 ^ 52 ≤ n := by
    have : (2 : ℝ) ^ 52 ≤ n := by
      rw [hxn] at b1
      exact le_of_mul_le_mul_right b1 hs
    exact_mod_cast this
  have habs := abs_le.1 h
  have xs : x / (2 * 10 ^ 16) < 46 / 100 * s := by
    rw [div_lt_iff₀ (by positivity)]
    nlinarith
  have n2' : (n : ℝ) ≤ 2 ^ 53 - 1 := by
    have : n ≤ 2 ^ 53 - 1 := by omega
    exact_mod_cast this
  have top : v < (2 : ℝ) ^ (Int.log 2 x + 1) := by
    rw [e2]
    have : x ≤ (2 ^ 53 - 1) * s := by rw [hxn]; exact mul_le_mul_of_nonneg_right n2' hs.le
    nlinarith
  rcases le_or_gt ((2 : ℝ) ^ Int.log 2 x) v with hlow | hlow
  · have hl : spacing v = s := by rw [hs0]; unfold spacing; rw [log_two_unique hlow top]
    unfold roundPos
    rw [hl, round_near (n := n), ← hxn]
    have : v / s - n = (v - x) / s := by rw [hxn]; field_simp
    rw [this, abs_div, abs_of_pos hs, div_lt_iff₀ hs]
    linarith
  · have hnn : n = 2 ^ 52 := by
      have : (n : ℝ) < 2 ^ 52 + 1 := by
        rw [e1] at hlow
        have : (n : ℝ) * s < (2 ^ 52 + 1) * s := by
          rw [← hxn]
          nlinarith
        exact lt_of_mul_lt_mul_right this hs.le
      have : n < 2 ^ 52 + 1 := by exact_mod_cast this
      omega
    have hx52 : x = 2 ^ 52 * s := by rw [hxn, hnn]; norm_num
    have e0 : (2 : ℝ) ^ (Int.log 2 x - 1) = (2 : ℝ) ^ 51 * s := by
      rw [hs0, spacing_mul]; norm_num; congr 1
    have hl : spacing v = s / 2 := by
      have hlog : Int.log 2 v = Int.log 2 x - 1 := by
        apply log_two_unique
        · rw [e0]
          have : x / (2 * 10 ^ 16) ≤ x / 4 := by
            apply div_le_div_of_nonneg_left hx.le (by norm_num) (by norm_num)
          nlinarith
        · rw [sub_add_cancel]; exact hlow
      rw [hs0]
      unfold spacing
      rw [hlog, show Int.log 2 x - 1 - 52 = Int.log 2 x - 52 - 1 by ring, zpow_sub_one₀ (by norm_num)]
      ring
    unfold roundPos
    rw [hl, round_near (n := 2 ^ 53)]
    · rw [hx52]; push_cast; ring
    · have : v / (s / 2) - ((2 ^ 53 : ℤ) : ℝ) = (v - x) / (s / 2) := by rw [hx52]; push_cast; field_simp; ring
      rw [this, abs_div, abs_of_pos (by positivity : 0 < s / 2), div_lt_iff₀ (by positivity)]
      have : x / (2 * 10 ^ 16) < 23 / 100 * s := by
        rw [div_lt_iff₀ (by positivity), hx52]
        nlinarith
      linarith

theorem roundDouble_near {q : ℚ} {v : ℝ} (hq : IsDouble q) (h : |v - q| ≤ |(q : ℝ)| / (2 * 10 ^ 16)) : roundDouble v = q := by
  obtain ⟨k, e, hk, hqk⟩ := hq
  have hex := roundDouble_exact k e hk
  have hqr : (q : ℝ) = k * (2 : ℝ) ^ e := by rw [hqk]; push_cast; ring
  rw [← hqr] at hex
  generalize (q : ℝ) = x at h hex
  have pos : ∀ {x v : ℝ}, 0 < x → roundDouble x = x → |v - x| ≤ |x| / (2 * 10 ^ 16) → roundDouble v = x := by
    intro x v hx hr h
    rw [abs_of_pos hx] at h
    have hv : 0 < v := by
      have := (abs_le.1 h).1
      have : x / (2 * 10 ^ 16) ≤ x / 4 := div_le_div_of_nonneg_left hx.le (by norm_num) (by norm_num)
      linarith
    rw [roundDouble_pos hv]
    rw [roundDouble_pos hx] at hr
    exact roundPos_near hx hr h
  rcases lt_trichotomy x 0 with h0 | h0 | h0
  · have := pos (x := -x) (v := -v) (by linarith) (by rw [roundDouble_neg, hex])
      (by rw [abs_neg, show -v - -x = -(v - x) by ring, abs_neg]; exact h)
    rw [roundDouble_neg] at this
    linarith
  · rw [h0] at h ⊢
    simp at h
    rw [h, roundDouble_zero]
  · exact pos h0 hex h

/-! ### C155 -/

/-- The texts of the head. -/
def CoeffHeader.fields (h : CoeffHeader) : List Str :=
  [h.channel, h.array, h.amount, h.bottom, h.top, h.camX, h.camY, h.camZ, h.property, h.refs, h.solver, h.lam, h.version] ++ h.bottoms ++
    h.tops ++ h.centres

theorem joinChar_notMem {c x : Char} (hx : x ≠ c) (fs : List Str) (h : ∀ f ∈ fs, x ∉ f) : x ∉ joinChar c fs := by
  induction fs with
  | nil => simp [joinChar]
  | cons f fs ih =>
    cases fs with
    | nil => simpa [joinChar] using h f (by simp)
    | cons g gs =>
      rw [joinChar, List.mem_append, List.mem_cons]
      · rintro (h1 | h1 | h1)
        · exact h f (by simp) h1
        · exact hx h1
        · exact ih (fun f' hf' => h f' (List.mem_cons_of_mem _ hf')) h1
      · simp

theorem head_noLine (h : CoeffHeader) (hf : ∀ f ∈ h.fields, '\n' ∉ f) (l : Str) (hl : l ∈ h.about ++ h.heights) : '\n' ∉ l := by
  have hb : '\n' ∉ joinChar ',' h.bottoms := joinChar_notMem (by decide) _ fun f h1 => hf f (by simp [CoeffHeader.fields, h1])
  have ht : '\n' ∉ joinChar ',' h.tops := joinChar_notMem (by decide) _ fun f h1 => hf f (by simp [CoeffHeader.fields, h1])
  have hc : '\n' ∉ joinChar ',' h.centres := joinChar_notMem (by decide) _ fun f h1 => hf f (by simp [CoeffHeader.fields, h1])
  have hs : ∀ f ∈ [h.channel, h.array, h.amount, h.bottom, h.top, h.camX, h.camY, h.camZ, h.property, h.refs, h.solver, h.lam, h.version],
      '\n' ∉ f := fun f h1 => hf f (by unfold CoeffHeader.fields; simp only [List.mem_append]; exact Or.inl (Or.inl (Or.inl h1)))
  simp only [List.forall_mem_cons] at hs
  obtain ⟨s1, s2, s3, s4, s5, s6, s7, s8, s9, s10, s11, s12, s13, _⟩ := hs
  simp only [CoeffHeader.about, CoeffHeader.heights, List.cons_append, List.nil_append, List.mem_cons, List.not_mem_nil, or_false] at hl
  rcases hl with rfl | rfl | rfl | rfl | rfl | rfl | rfl <;> simp only [List.mem_append, not_or] <;> and_intros <;>
    first | assumption | decide

theorem natStr_notMem (n : ℕ) (c : Char) (hc : isDigit c = false) : c ∉ natStr n := notMem_of_isDigit (natStr_isDigit n) hc

theorem columnLine_split (n : ℕ) : splitChar ',' ("# ".toList ++ columnLine (n + 1)) =
    "# Experiment_Time[s]".toList :: (List.range (n + 1)).map fun i => "layer".toList ++ natStr i := by
  have key : ∀ (l : List ℕ) (f : Str), ',' ∉ f →
      splitChar ',' (f ++ (l.map fun i => ",layer".toList ++ natStr (i + 1)).flatten) = f :: l.map fun i => "layer".toList ++ natStr (i + 1) := by
    intro l
    induction l with
    | nil => intro f hf; rw [List.map_nil, List.flatten_nil, List.append_nil, splitChar_of_notMem hf]; rfl
    | cons i l ih =>
      intro f hf
      rw [List.map_cons, List.flatten_cons, List.map_cons]
      have : f ++ (",layer".toList ++ natStr (i + 1) ++ (l.map fun i => ",layer".toList ++ natStr (i + 1)).flatten) =
          f ++ ',' :: (("layer".toList ++ natStr (i + 1)) ++ (l.map fun i => ",layer".toList ++ natStr (i + 1)).flatten) := by
        congr 1
      rw [this, splitChar_append hf, ih]
      rw [List.mem_append, not_or]
      exact ⟨by decide, natStr_notMem _ _ (by decide)⟩
  unfold columnLine
  have e : "# ".toList ++ ("Experiment_Time[s],".toList ++ "layer0".toList ++
      ((List.range (n + 1 - 1)).map fun i => ",layer".toList ++ natStr (i + 1)).flatten) =
      "# Experiment_Time[s]".toList ++ ',' :: ("layer0".toList ++ ((List.range n).map fun i => ",layer".toList ++ natStr (i + 1)).flatten) := by
    rw [Nat.add_sub_cancel, List.append_assoc]; rfl
  rw [e, splitChar_append (by decide), key _ _ (by decide), List.range_succ_eq_map, List.map_cons, List.map_map]
  rfl

theorem columnLine_noLine (n : ℕ) : '\n' ∉ columnLine n := by
  unfold columnLine
  rw [List.mem_append, List.mem_append, List.mem_flatten]
  rintro ((h | h) | ⟨l, h, h'⟩)
  · revert h; decide
  · revert h; decide
  · obtain ⟨i, _, rfl⟩ := List.mem_map.1 h
    rw [List.mem_append] at h'
    rcases h' with h' | h'
    · revert h'; decide
    · exact natStr_notMem _ _ (by decide) h'

theorem fmtSciD_notMem (d : ℕ) (q : ℚ) (c : Char) (hc : isNumChar c = false) : c ∉ fmtSciD d q := by
  intro h
  have := fmtSciD_chars d q c h
  rw [hc] at this
  cases this

theorem savetxtLine_noLine (row : List ℚ) : '\n' ∉ savetxtLine row :=
  joinChar_notMem (by decide) _ fun f hf => by
    obtain ⟨q, _, rfl⟩ := List.mem_map.1 hf
    exact fmtSciD_notMem 18 q _ (by decide)

theorem fmtSciD_ne_nil (d : ℕ) (q : ℚ) : fmtSciD d q ≠ [] := by
  unfold fmtSciD
  simp

theorem savetxtLine_split (row : List ℚ) (h : row ≠ []) : splitChar ',' (savetxtLine row) = row.map (fmtSciD 18) :=
  splitChar_joinChar (by simpa using h) fun f hf => by
    obtain ⟨q, _, rfl⟩ := List.mem_map.1 hf
    exact fmtSciD_notMem 18 q _ (by decide)

theorem savetxtLine_ne_nil (row : List ℚ) (h : row ≠ []) : savetxtLine row ≠ [] := by
  intro h'
  have := savetxtLine_split row h
  rw [h'] at this
  cases row with
  | nil => exact h rfl
  | cons q row =>
    have := (List.cons.inj this).1
    exact fmtSciD_ne_nil 18 q this.symm

theorem mapM_readFloat (row : List ℚ) : (row.map (fmtSciD 18)).mapM readFloat = some (row.map (sciValD 18)) := by
  induction row with
  | nil => rfl
  | cons q row ih => rw [List.map_cons, List.mapM_cons, readFloat_fmtSciD 17, ih]; rfl

/-- The whole file, for any conversion of decimal numbers. -/
theorem readCoeffText_coeffText {K : Type} (conv : ℚ → K) (h : CoeffHeader) (hf : ∀ f ∈ h.fields, '\n' ∉ f) (n : ℕ) (rows : List (ℚ × List ℚ))
    (hl : ∀ r ∈ rows, r.2.length = n + 1) :
    readCoeffText conv (coeffText h (n + 1) rows) =
      some (n + 1, rows.map fun r => (conv (sciValD 18 r.1), r.2.map fun x => conv (sciValD 18 x))) := by
  unfold coeffText readCoeffText
  rw [splitChar_textLines]
  · have e : (((h.about ++ h.heights ++ [columnLine (n + 1)]).map ("# ".toList ++ ·) ++ rows.map fun (r : ℚ × List ℚ) => savetxtLine (r.1 :: r.2)) ++ [[]]).drop 7 =
        ("# ".toList ++ columnLine (n + 1)) :: ((rows.map fun r => savetxtLine (r.1 :: r.2)) ++ [[]]) := rfl
    have e2 : (("# ".toList ++ columnLine (n + 1)) :: ((rows.map fun r => savetxtLine (r.1 :: r.2)) ++ [[]])).filter (· ≠ []) =
        ("# ".toList ++ columnLine (n + 1)) :: (rows.map fun r => savetxtLine (r.1 :: r.2)) := by
      rw [List.filter_cons_of_pos (by simp), List.filter_append, List.filter_cons_of_neg (by simp), List.filter_nil, List.append_nil]
      congr 1
      apply List.filter_eq_self.2
      intro l hl
      obtain ⟨r, _, rfl⟩ := List.mem_map.1 hl
      simpa using savetxtLine_ne_nil _ (by simp)
    rw [e, e2]
    simp only
    rw [columnLine_split, List.head?_cons, if_pos rfl, List.length_cons, List.length_map, List.length_range, Nat.add_sub_cancel, List.mapM_map]
    have : ∀ rows : List (ℚ × List ℚ), (∀ r ∈ rows, r.2.length = n + 1) → (rows.mapM fun r => match (splitChar ',' (savetxtLine (r.1 :: r.2))).mapM readFloat with
        | some (t :: xs) => if xs.length = n + 1 then some (conv t, xs.map conv) else none
        | _ => none) = some (rows.map fun r => (conv (sciValD 18 r.1), r.2.map fun x => conv (sciValD 18 x))) := by
      intro rows
      induction rows with
      | nil => intro _; rfl
      | cons r rows ih =>
        intro hl
        rw [List.mapM_cons, ih fun r' hr' => hl r' (List.mem_cons_of_mem _ hr'), savetxtLine_split _ (by simp), mapM_readFloat]
        simp only [List.map_cons]
        rw [if_pos (by rw [List.length_map]; exact hl r (by simp)), List.map_map]
        rfl
    erw [this rows hl]
    rfl
  · intro l hl
    rw [List.mem_append, List.mem_map, List.mem_map] at hl
    rcases hl with ⟨x, hx, rfl⟩ | ⟨r, _, rfl⟩
    · rw [List.mem_append, List.mem_singleton] at hx
      rw [List.mem_append, not_or]
      refine ⟨by decide, ?_⟩
      rcases hx with hx | rfl
      · exact head_noLine h hf x hx
      · exact columnLine_noLine _
    · exact savetxtLine_noLine _

/-- Whole numbers with at most `d + 1` digits are written exactly. -/
theorem sciValD_int (d : ℕ) (z : ℤ) (h : |z| < 10 ^ (d + 1)) : sciValD d z = z := by
  rcases eq_or_ne z 0 with rfl | hz
  · simp [sciValD, sciPartsD]
  have ha : (0 : ℚ) < |(z : ℚ)| := abs_pos.2 (by exact_mod_cast hz)
  have hlt : |(z : ℚ)| < 10 ^ (d + 1) := by exact_mod_cast h
  obtain ⟨_, _, h3⟩ := sciPartsD_spec d |(z : ℚ)| ha
  have he : Int.log 10 |(z : ℚ)| ≤ d := by
    have := (Int.lt_zpow_iff_log_lt (b := 10) (by norm_num) ha (x := d + 1)).1 (by push_cast; exact_mod_cast hlt)
    omega
  obtain ⟨k, hk⟩ := Int.eq_ofNat_of_zero_le (show 0 ≤ (d : ℤ) - Int.log 10 |(z : ℚ)| by omega)
  have hx : |(z : ℚ)| / (10 : ℚ) ^ (Int.log 10 |(z : ℚ)| - d) = ((|z| * 10 ^ k : ℤ) : ℚ) := by
    rw [show Int.log 10 |(z : ℚ)| - (d : ℤ) = -(k : ℤ) by omega, zpow_neg, zpow_natCast, div_inv_eq_mul]
    push_cast; rfl
  unfold sciValD
  rw [h3, hx, rne_int, ← hx, div_mul_cancel₀ _ (by positivity)]
  split
  · rename_i hn; rw [abs_of_neg hn]; ring
  · rename_i hn; rw [abs_of_nonneg (not_lt.1 hn), one_mul]

/-! ### C155: numbers survive their files -/

/-- **C155 (digits).** A number that was saved is read with an error of at most half a unit of the nineteenth digit, whatever its size and
sign. -/
theorem C155_digits (q : ℚ) : ∃ v, readFloat (fmtSciD 18 q) = some v ∧ |v - q| ≤ |q| / (2 * 10 ^ 18) :=
  ⟨_, readFloat_fmtSciD 17 q, sciValD_near 18 q⟩

/-- **C155 (one number).** A floating point number that is written with at least sixteen digits after the point and read with correct rounding
is the same number. -/
theorem C155_number (d : ℕ) (hd : 16 ≤ d) (q : ℚ) (hq : IsDouble q) : ∃ v, readFloat (fmtSciD d q) = some v ∧ roundDouble v = q := by
  obtain ⟨k, rfl⟩ := Nat.exists_eq_add_of_le (show 1 ≤ d by omega)
  rw [Nat.add_comm] at hd ⊢
  refine ⟨_, readFloat_fmtSciD k q, roundDouble_near hq ?_⟩
  have h := sciValD_near (k + 1) q
  have h1 : |q| / (2 * 10 ^ (k + 1)) ≤ |q| / (2 * 10 ^ 16) := by
    apply div_le_div_of_nonneg_left (abs_nonneg q) (by positivity)
    exact mul_le_mul_of_nonneg_left (pow_le_pow_right₀ (by norm_num) hd) (by norm_num)
  have := h.trans h1
  exact_mod_cast this

/-- **C155 (no two numbers share a text).** -/
theorem C155_distinct (d : ℕ) (hd : 16 ≤ d) (p q : ℚ) (hp : IsDouble p) (hq : IsDouble q) (h : fmtSciD d p = fmtSciD d q) : p = q := by
  obtain ⟨v, h1, h2⟩ := C155_number d hd p hp
  obtain ⟨w, h3, h4⟩ := C155_number d hd q hq
  rw [h, h3] at h1
  obtain rfl := Option.some.inj h1
  rw [h2] at h4
  exact_mod_cast h4

/-- **C155 (the file).** Times and coefficients of a file with its head are read back as they were, with correct rounding, if the times are whole
seconds, for any number of images and layers. -/
theorem C155_file (h : CoeffHeader) (hf : ∀ f ∈ h.fields, '\n' ∉ f) (n : ℕ) (rows : List (ℤ × List ℚ)) (hl : ∀ r ∈ rows, r.2.length = n + 1)
    (ht : ∀ r ∈ rows, |r.1| ≤ 2 ^ 53) (hd : ∀ r ∈ rows, ∀ x ∈ r.2, IsDouble x) :
    readCoeffText (fun v => roundDouble v) (coeffText h (n + 1) (rows.map fun r => ((r.1 : ℚ), r.2))) =
      some (n + 1, rows.map fun r => ((r.1 : ℝ), r.2.map fun (x : ℚ) => (x : ℝ))) := by
  rw [readCoeffText_coeffText _ h hf n]
  · rw [List.map_map]
    congr 2
    apply List.map_congr_left
    intro r hr
    have hz : |r.1| < 10 ^ (18 + 1) := lt_of_le_of_lt (ht r hr) (by norm_num)
    have hr1 := roundDouble_exact r.1 0 (ht r hr)
    simp only [Function.comp, sciValD_int 18 r.1 hz]
    refine Prod.ext ?_ ?_
    · simpa using hr1
    · apply List.map_congr_left
      intro x hx
      obtain ⟨v, h1, h2⟩ := C155_number 18 (by norm_num) x (hd r hr x hx)
      rw [readFloat_fmtSciD 17] at h1
      rw [Option.some.inj h1]
      exact h2
  · intro r hr
    obtain ⟨r', hr', rfl⟩ := List.mem_map.1 hr
    exact hl r' hr'

/-- **C155 (other readers).** A reader that is off by at most a part `w` of each number gives the times exactly, if it reads whole numbers exactly,
and every coefficient up to `w` and half a unit of the nineteenth digit. -/
theorem C155_near (conv : ℚ → ℚ) (w : ℚ) (hw : 0 ≤ w) (hc : ∀ x, |conv x - x| ≤ w * |x|) (hint : ∀ z : ℤ, |z| ≤ 2 ^ 53 → conv z = z) (h : CoeffHeader)
    (hf : ∀ f ∈ h.fields, '\n' ∉ f) (n : ℕ) (rows : List (ℤ × List ℚ)) (hl : ∀ r ∈ rows, r.2.length = n + 1) (ht : ∀ r ∈ rows, |r.1| ≤ 2 ^ 53) :
    ∃ table, readCoeffText conv (coeffText h (n + 1) (rows.map fun r => ((r.1 : ℚ), r.2))) = some (n + 1, table) ∧
      List.Forall₂ (fun (r : ℤ × List ℚ) (s : ℚ × List ℚ) => s.1 = r.1 ∧ List.Forall₂ (fun x y => |y - x| ≤ (w * (1 + 1 / 10 ^ 18) + 1 / (2 * 10 ^ 18)) * |x|) r.2 s.2)
        rows table := by
  refine ⟨_, readCoeffText_coeffText conv h hf n _ ?_, ?_⟩
  · intro r hr
    obtain ⟨r', hr', rfl⟩ := List.mem_map.1 hr
    exact hl r' hr'
  · rw [List.map_map, List.forall₂_map_right_iff, List.forall₂_same]
    intro r hr
    have hz : |r.1| < 10 ^ (18 + 1) := lt_of_le_of_lt (ht r hr) (by norm_num)
    refine ⟨?_, ?_⟩
    · simp only [Function.comp, sciValD_int 18 r.1 hz]
      exact hint _ (ht r hr)
    · simp only [Function.comp]
      rw [List.forall₂_map_right_iff, List.forall₂_same]
      intro x _
      have h1 := sciValD_near 18 x
      have h2 := hc (sciValD 18 x)
      generalize sciValD 18 x = v at h1 h2 ⊢
      have h3 : |v| ≤ |x| * (1 + 1 / 10 ^ 18) := by
        have : |v| ≤ |v - x| + |x| := by
          calc |v| = |(v - x) + x| := by ring_nf
            _ ≤ _ := abs_add_le _ _
        have h0 := abs_nonneg x
        calc |v| ≤ |x| / (2 * 10 ^ 18) + |x| := by linarith
          _ ≤ _ := by
            rw [mul_add, mul_one, add_comm]
            apply add_le_add le_rfl
            rw [mul_one_div]
            exact div_le_div_of_nonneg_left h0 (by positivity) (by norm_num)
      calc |conv v - x| = |(conv v - v) + (v - x)| := by ring_nf
        _ ≤ |conv v - v| + |v - x| := abs_add_le _ _
        _ ≤ w * (|x| * (1 + 1 / 10 ^ 18)) + |x| / (2 * 10 ^ 18) := add_le_add (h2.trans (mul_le_mul_of_nonneg_left h3 hw)) h1
        _ = _ := by ring

/-- **C155 (too few digits).** With fifteen digits after the point two numbers can share a text: 0.3 and 0.1 + 0.2. -/
theorem C155_fifteen_false : ∃ p q : ℚ, IsDouble p ∧ IsDouble q ∧ p ≠ q ∧ fmtSciD 15 p = fmtSciD 15 q := by
  refine ⟨5404319552844595 / 2 ^ 54, 5404319552844596 / 2 ^ 54, ⟨5404319552844595, -54, by norm_num, by norm_num⟩,
    ⟨5404319552844596, -54, by norm_num, by norm_num⟩, by norm_num, by decide +kernel⟩

/-- The text of a floating point number. -/
example : fmtSciD 18 (5404319552844595 / 2 ^ 54) = "2.999999999999999889e-01".toList := by decide +kernel

example : fmtSciD 18 (-1 / 3) = "-3.333333333333333333e-01".toList ∧ fmtSciD 18 125 = "1.250000000000000000e+02".toList ∧
    fmtSciD 18 0 = "0.000000000000000000e+00".toList := by decide +kernel

/-- A head. -/
def someHeader : CoeffHeader :=
  ⟨['0'], ['3'], ['2'], "1.0".toList, "3.0".toList, "7.29".toList, "6.46".toList, "2.3".toList, "sum_col_val".toList, "[0, 1]".toList,
    "linear".toList, "0.001".toList, "2.0".toList, ["1.0".toList, "2.0".toList], ["2.0".toList, "3.0".toList], ["1.50".toList, "2.50".toList]⟩

/-- A file with two layers and two images. -/
example : readCoeffText id (coeffText someHeader 2 [(-1, [1 / 4, 0]), (12, [3 / 2, -1 / 8])]) =
    some (2, [(-1, [1 / 4, 0]), (12, [3 / 2, -1 / 8])]) := by decide +kernel

example : ∀ f ∈ someHeader.fields, '\n' ∉ f := by decide

end Ledsa
