import Verif.Model.Extraction
import Verif.Props.Images
import Verif.Props.Step3
import Verif.Props.Prompts
import Verif.Proofs.ImageInfos
import Mathlib.Tactic.FieldSimp
import Mathlib.Tactic.Linarith
import Mathlib.Tactic.Positivity
/-
Text of numbers and lines of the files of the data extraction.
-/
namespace Ledsa

/-! ### Numbers -/

/-- The number a text with mantissa and exponent stands for. -/
def sciVal (q : ℚ) : ℚ := (if q < 0 then -1 else 1) * (((sciParts |q|).1 : ℚ) * (10 : ℚ) ^ ((sciParts |q|).2 - 4))

theorem sciParts_spec (q : ℚ) (h : 0 < q) :
    10000 ≤ (sciParts q).1 ∧ (sciParts q).1 < 100000 ∧
    ((sciParts q).1 : ℚ) * (10 : ℚ) ^ ((sciParts q).2 - 4) = rne (q / (10 : ℚ) ^ (Int.log 10 q - 4)) * (10 : ℚ) ^ (Int.log 10 q - 4) := by
  have h1 : (10 : ℚ) ^ Int.log 10 q ≤ q := by
    have := Int.zpow_log_le_self (b := 10) (by decide) h
    simpa using this
  have h2 : q < (10 : ℚ) ^ (Int.log 10 q + 1) := by
    have := Int.lt_zpow_succ_log_self (b := 10) (by decide) q
    simpa using this
  set e := Int.log 10 q with he
  have hp : (0 : ℚ) < 10 ^ (e - 4) := by positivity
  have e4 : (10 : ℚ) ^ e = 10000 * 10 ^ (e - 4) := by
    rw [show e = 4 + (e - 4) by ring, zpow_add₀ (by norm_num)]; norm_num
  have e5 : (10 : ℚ) ^ (e + 1) = 100000 * 10 ^ (e - 4) := by
    rw [show e + 1 = 5 + (e - 4) by ring, zpow_add₀ (by norm_num)]; norm_num
  have hx1 : (10000 : ℚ) ≤ q / 10 ^ (e - 4) := by rw [le_div_iff₀ hp]; linarith
  have hx2 : q / 10 ^ (e - 4) ≤ 100000 := by rw [div_le_iff₀ hp]; linarith
  have hm1 : 10000 ≤ rne (q / 10 ^ (e - 4)) := by
    have := rne_mono hx1
    rwa [show (10000 : ℚ) = ((10000 : ℤ) : ℚ) by norm_num, rne_int] at this
  have hm2 : rne (q / 10 ^ (e - 4)) ≤ 100000 := by
    have := rne_mono hx2
    rwa [show (100000 : ℚ) = ((100000 : ℤ) : ℚ) by norm_num, rne_int] at this
  unfold sciParts
  rw [if_neg h.ne']
  simp only [← he]
  have hcast : (((rne (q / 10 ^ (e - 4))).toNat : ℕ) : ℚ) = rne (q / 10 ^ (e - 4)) := by
    have : (((rne (q / 10 ^ (e - 4))).toNat : ℕ) : ℤ) = rne (q / 10 ^ (e - 4)) := Int.toNat_of_nonneg (by omega)
    exact_mod_cast this
  split
  · rename_i hm
    refine ⟨by norm_num, by norm_num, ?_⟩
    have : rne (q / 10 ^ (e - 4)) = 100000 := by omega
    rw [this]
    push_cast
    rw [show e + 1 - 4 = 1 + (e - 4) by ring, zpow_add₀ (by norm_num)]
    norm_num
    ring
  · rename_i hm
    refine ⟨?_, ?_, ?_⟩
    · simp only; omega
    · simp only; omega
    · simp only [hcast]

/-- The text of a number is at most one part in twenty thousand off. -/
theorem sciVal_near (q : ℚ) : |sciVal q - q| ≤ |q| / 20000 := by
  rcases eq_or_ne q 0 with rfl | hq
  · simp [sciVal, sciParts]
  have ha : 0 < |q| := abs_pos.2 hq
  obtain ⟨_, _, h3⟩ := sciParts_spec |q| ha
  have h1 : (10 : ℚ) ^ Int.log 10 |q| ≤ |q| := by
    have := Int.zpow_log_le_self (b := 10) (by decide) ha
    simpa using this
  set e := Int.log 10 |q| with he
  have hp : (0 : ℚ) < 10 ^ (e - 4) := by positivity
  have e4 : (10 : ℚ) ^ e = 10000 * 10 ^ (e - 4) := by
    rw [show e = 4 + (e - 4) by ring, zpow_add₀ (by norm_num)]; norm_num
  have hn := rne_near (|q| / 10 ^ (e - 4))
  have hv : |(rne (|q| / 10 ^ (e - 4)) : ℚ) * 10 ^ (e - 4) - (|q|)| ≤ |q| / 20000 := by
    have : (rne (|q| / 10 ^ (e - 4)) : ℚ) * 10 ^ (e - 4) - |q| = ((rne (|q| / 10 ^ (e - 4)) : ℚ) - |q| / 10 ^ (e - 4)) * 10 ^ (e - 4) := by
      field_simp
    rw [this, abs_mul, abs_of_pos hp]
    calc _ ≤ 1 / 2 * (10 : ℚ) ^ (e - 4) := mul_le_mul_of_nonneg_right hn hp.le
      _ ≤ |q| / 20000 := by linarith
  unfold sciVal
  rw [h3]
  split
  · rename_i hneg
    have hq' : q = -|q| := by rw [abs_of_neg hneg]; ring
    have hgen : ∀ a b : ℚ, b = -q → (-1 : ℚ) * a - q = -(a - b) := by rintro a b rfl; ring
    rw [hgen _ |q| (by linarith)]
    rw [abs_neg]; exact hv
  · rename_i hneg
    have hq' : |q| = q := abs_of_nonneg (not_lt.1 hneg)
    rw [hq'] at hv ⊢
    rw [one_mul]; exact hv

theorem sciVal_zero : sciVal 0 = 0 := by simp [sciVal, sciParts]

theorem sciVal_nonneg (q : ℚ) (h : 0 ≤ q) : 0 ≤ sciVal q := by
  unfold sciVal
  rw [if_neg (not_lt.2 h)]
  positivity

/-- Natural numbers stay natural, those below 100000 stay the same. -/
theorem sciVal_nat (n : ℕ) : ∃ v : ℕ, sciVal n = v ∧ (n < 100000 → v = n) := by
  rcases Nat.eq_zero_or_pos n with rfl | hn
  · exact ⟨0, by simpa using sciVal_zero, fun _ => rfl⟩
  have hq : (0 : ℚ) < n := by exact_mod_cast hn
  obtain ⟨_, _, h3⟩ := sciParts_spec n hq
  have h1 : (10 : ℚ) ^ Int.log 10 (n : ℚ) ≤ n := by
    have := Int.zpow_log_le_self (b := 10) (by decide) hq
    simpa using this
  have h2 : (n : ℚ) < (10 : ℚ) ^ (Int.log 10 (n : ℚ) + 1) := by
    have := Int.lt_zpow_succ_log_self (b := 10) (by decide) (n : ℚ)
    simpa using this
  have hval : sciVal n = rne ((n : ℚ) / (10 : ℚ) ^ (Int.log 10 (n : ℚ) - 4)) * (10 : ℚ) ^ (Int.log 10 (n : ℚ) - 4) := by
    unfold sciVal
    rw [if_neg (by push Not; exact hq.le), one_mul, abs_of_pos hq, h3]
  have h0 : 0 ≤ Int.log 10 (n : ℚ) := by
    by_contra hlt
    have : (10 : ℚ) ^ (Int.log 10 (n : ℚ) + 1) ≤ 10 ^ (0 : ℤ) := zpow_le_zpow_right₀ (by norm_num) (by omega)
    have h1n : (1 : ℚ) ≤ n := by exact_mod_cast hn
    rw [zpow_zero] at this
    linarith
  obtain ⟨e, he⟩ := Int.eq_ofNat_of_zero_le h0
  rw [he] at hval h1 h2
  by_cases h4 : e ≤ 4
  · refine ⟨n, ?_, fun _ => rfl⟩
    rw [hval]
    obtain ⟨k, hk⟩ := Nat.exists_eq_add_of_le h4
    have hx : (n : ℚ) / (10 : ℚ) ^ ((e : ℤ) - 4) = ((n * 10 ^ k : ℕ) : ℤ) := by
      rw [show ((e : ℤ) - 4) = -(k : ℤ) by omega, zpow_neg, zpow_natCast]
      push_cast
      rw [div_inv_eq_mul]
    rw [hx, rne_int, show ((e : ℤ) - 4) = -(k : ℤ) by omega, zpow_neg, zpow_natCast]
    push_cast
    field_simp
  · obtain ⟨k, hk⟩ := Nat.exists_eq_add_of_le (show 4 ≤ e by omega)
    have hpos : 0 ≤ rne ((n : ℚ) / (10 : ℚ) ^ ((e : ℤ) - 4)) := by
      have : (0 : ℚ) ≤ (n : ℚ) / (10 : ℚ) ^ ((e : ℤ) - 4) := by positivity
      have := rne_mono this
      rwa [show (0 : ℚ) = ((0 : ℤ) : ℚ) by norm_num, rne_int] at this
    obtain ⟨m, hm⟩ := Int.eq_ofNat_of_zero_le hpos
    refine ⟨m * 10 ^ k, ?_, fun hlt => ?_⟩
    · rw [hval, hm, show ((e : ℤ) - 4) = (k : ℤ) by omega, zpow_natCast]
      push_cast; ring
    · exfalso
      have : (10 : ℚ) ^ (5 : ℤ) ≤ 10 ^ ((e : ℕ) : ℤ) := zpow_le_zpow_right₀ (by norm_num) (by omega)
      have h5 : (n : ℚ) < 100000 := by exact_mod_cast hlt
      norm_num at this
      have h1' : (10 : ℚ) ^ e ≤ n := by rw [← zpow_natCast]; exact h1
      linarith

/-! ### Text of numbers -/

/-- Characters of numbers. -/
def isNumChar (c : Char) : Bool := isDigit c || c == '.' || c == 'e' || c == '+' || c == '-'

theorem isNumChar_ne {c : Char} (h : isNumChar c = true) (x : Char) (hx : isNumChar x = false) : c ≠ x := by
  rintro rfl; simp [h] at hx

theorem isNumChar_digit {c : Char} (h : isDigit c = true) : isNumChar c = true := by simp [isNumChar, h]

theorem isWs_isNumChar {c : Char} (h : isNumChar c = true) : isWs c = false := by
  have h1 := isNumChar_ne h ' ' (by decide)
  have h2 := isNumChar_ne h '\t' (by decide)
  have h3 := isNumChar_ne h '\n' (by decide)
  have h4 := isNumChar_ne h '\r' (by decide)
  have h5 := isNumChar_ne h '\x0b' (by decide)
  have h6 := isNumChar_ne h '\x0c' (by decide)
  simp [isWs, h1, h2, h3, h4, h5, h6]

theorem expText_chars (e : ℤ) : ∀ c ∈ expText e, isNumChar c = true := by
  intro c hc
  unfold expText at hc
  rcases List.mem_cons.1 hc with rfl | hc
  · split <;> decide
  · exact isNumChar_digit (zfill_natStr_isDigit _ _ c hc)

theorem fmtSci_chars (q : ℚ) : ∀ c ∈ fmtSci q, isNumChar c = true := by
  intro c hc
  unfold fmtSci at hc
  simp only [List.append_assoc, List.cons_append, List.mem_append, List.mem_cons] at hc
  rcases hc with hc | hc | rfl | hc | rfl | hc
  · split at hc
    · rw [List.mem_singleton.1 hc]; decide
    · cases hc
  · exact isNumChar_digit (natStr_isDigit _ c hc)
  · decide
  · exact isNumChar_digit (zfill_natStr_isDigit _ _ c hc)
  · decide
  · exact expText_chars _ c hc

theorem readExp_expText (e : ℤ) : readExp (expText e) = some e := by
  unfold expText
  by_cases h : e < 0
  · rw [if_pos h]
    unfold readExp
    simp only [parseNat_zfill_natStr, Option.map_some, Option.some.injEq]
    omega
  · rw [if_neg h]
    unfold readExp
    simp only [parseNat_zfill_natStr, Option.map_some, Option.some.injEq]
    omega

theorem parseNat_digits_append (A : Str) (a b k : ℕ) (hne : A ≠ []) (hv : digitsVal 0 A = some a) (hb : b < 10 ^ (k + 1)) :
    parseNat (A ++ zfill (k + 1) (natStr b)) = some (a * 10 ^ (k + 1) + b) := by
  have hl := zfill_natStr_length k b hb
  have hacc : ∀ (s : Str), (∀ c ∈ s, isDigit c = true) → ∀ acc v, digitsVal 0 s = some v → digitsVal acc s = some (acc * 10 ^ s.length + v) := by
    intro s
    induction s using List.reverseRecOn with
    | nil => intro _ acc v h; simp [digitsVal] at h ⊢; omega
    | append_singleton s c ih =>
      intro hs acc v h
      rw [digitsVal_append] at h ⊢
      have hd : ∀ x ∈ s, isDigit x = true := fun x hx => hs x (by simp [hx])
      cases h0 : digitsVal 0 s with
      | none => rw [h0] at h; cases h
      | some v0 =>
        rw [h0] at h
        rw [ih hd acc v0 h0]
        simp only [Option.bind_some, digitsVal] at h ⊢
        cases hc : charDigit c with
        | none => rw [hc] at h; cases h
        | some d =>
          rw [hc] at h
          simp only [Option.some.injEq] at h ⊢
          rw [List.length_append, List.length_singleton, pow_succ]
          rw [← h]; ring
  unfold parseNat
  rw [if_neg (by simp [hne]), digitsVal_append, hv]
  simp only [Option.bind_some]
  have h0 : digitsVal 0 (zfill (k + 1) (natStr b)) = some b := by
    have := parseNat_zfill_natStr (k + 1) b
    unfold parseNat at this
    split at this
    · cases this
    · exact this
  rw [hacc _ (zfill_natStr_isDigit _ _) a b h0, hl]

theorem readUnsigned_digits (A : Str) (a b : ℕ) (hA : ∀ c ∈ A, isDigit c = true) (hne : A ≠ []) (hv : digitsVal 0 A = some a)
    (hb : b < 10000) (e : ℤ) :
    readUnsigned (A ++ '.' :: zfill 4 (natStr b) ++ 'e' :: expText e) = some (((a * 10000 + b : ℕ) : ℚ) * (10 : ℚ) ^ (e - 4)) := by
  have hnum : ∀ c ∈ A ++ '.' :: zfill 4 (natStr b), c ≠ 'e' := by
    intro c hc
    rw [List.mem_append, List.mem_cons] at hc
    rcases hc with hc | rfl | hc
    · exact isDigit_ne (hA c hc) 'e' (by decide)
    · decide
    · exact isDigit_ne (zfill_natStr_isDigit _ _ c hc) 'e' (by decide)
  have hexp : 'e' ∉ expText e := by
    intro h
    unfold expText at h
    rcases List.mem_cons.1 h with h | h
    · revert h; split <;> decide
    · exact absurd (zfill_natStr_isDigit _ _ _ h) (by decide)
  unfold readUnsigned
  rw [splitChar_append (fun h => hnum _ h rfl), splitChar_of_notMem hexp]
  simp only
  have hlt : b < 10 ^ (3 + 1) := by norm_num; exact hb
  have hdec : readDecimal (A ++ '.' :: zfill 4 (natStr b)) = some (((a * 10000 + b : ℕ) : ℚ) / 10000) := by
    unfold readDecimal
    rw [splitChar_append (notMem_of_isDigit hA (by decide)),
      splitChar_of_notMem (notMem_of_isDigit (zfill_natStr_isDigit _ _) (by decide))]
    simp only
    have hz : zfill 4 (natStr b) ≠ [] := by
      intro h
      have := zfill_natStr_length 3 b hlt
      rw [h] at this
      cases this
    rw [if_neg (by simp [hne, hz]), parseNat_digits_append A a b 3 hne hv hlt, zfill_natStr_length 3 _ hlt]
    simp only [Option.map_some, Option.some.injEq]
    norm_num
  rw [hdec, readExp_expText]
  simp only [Option.some.injEq]
  rw [zpow_sub₀ (by norm_num : (10 : ℚ) ≠ 0)]
  norm_num
  ring

theorem readUnsigned_sci (m : ℕ) (e : ℤ) :
    readUnsigned (natStr (m / 10000) ++ '.' :: zfill 4 (natStr (m % 10000)) ++ 'e' :: expText e) =
      some ((m : ℚ) * (10 : ℚ) ^ (e - 4)) := by
  rw [readUnsigned_digits _ (m / 10000) (m % 10000) (natStr_isDigit _) (natStr_ne_nil _) (digitsVal_natStr _)
    (Nat.mod_lt _ (by decide)) e]
  have hm : m / 10000 * 10000 + m % 10000 = m := by omega
  rw [hm]

/-- A written number is read as `sciVal`. -/
theorem readFloat_fmtSci (q : ℚ) : readFloat (fmtSci q) = some (sciVal q) := by
  unfold readFloat
  rw [strip_eq_self fun c hc => isWs_isNumChar (fmtSci_chars q c hc)]
  unfold fmtSci sciVal
  split
  · rename_i t h
    split
    · rename_i hq
      rw [if_pos hq] at h
      rw [List.append_assoc, List.append_assoc] at h
      have ht := (List.cons.inj h).2
      rw [← ht]
      have := readUnsigned_sci (sciParts |q|).1 (sciParts |q|).2
      rw [List.append_assoc] at this
      erw [this]
      simp
    · rename_i hq
      rw [if_neg hq] at h
      exfalso
      rw [List.nil_append, List.append_assoc] at h
      cases hn : natStr ((sciParts |q|).1 / 10000) with
      | nil => exact natStr_ne_nil _ hn
      | cons c cs =>
        rw [hn] at h
        have hc := natStr_isDigit _ c (by rw [hn]; simp)
        rw [(List.cons.inj h).1] at hc
        exact absurd hc (by decide)
  · rename_i t h
    exfalso
    split at h
    · exact absurd (List.cons.inj h).1 (by decide)
    · rw [List.nil_append, List.append_assoc] at h
      cases hn : natStr ((sciParts |q|).1 / 10000) with
      | nil => exact natStr_ne_nil _ hn
      | cons c cs =>
        rw [hn] at h
        have hc := natStr_isDigit _ c (by rw [hn]; simp)
        rw [(List.cons.inj h).1] at hc
        exact absurd hc (by decide)
  · rename_i h1 h2
    split
    · rename_i hq
      exfalso
      rw [if_pos hq] at h1
      exact h1 _ rfl
    · rename_i hq
      rw [List.nil_append, readUnsigned_sci, one_mul]

theorem readUnsigned_natStr (n : ℕ) : readUnsigned (natStr n) = some (n : ℚ) := by
  unfold readUnsigned
  rw [splitChar_of_notMem (notMem_of_isDigit (natStr_isDigit n) (by decide))]
  simp only
  unfold readDecimal
  rw [splitChar_of_notMem (notMem_of_isDigit (natStr_isDigit n) (by decide))]
  simp only [parseNat_natStr, Option.map_some]

theorem strip_padLeft (w : ℕ) (s : Str) (hs : ∀ c ∈ s, isWs c = false) : strip (padLeft w s) = s := by
  unfold padLeft
  have : ∀ k, (List.replicate k ' ' ++ s).dropWhile isWs = s := by
    intro k
    induction k with
    | zero => simpa using dropWhile_eq_self_of_all hs
    | succ k ih => rw [List.replicate_succ, List.cons_append, List.dropWhile_cons_of_pos (by decide)]; exact ih
  unfold strip
  rw [this, dropWhile_eq_self_of_all (fun c hc => hs c (List.mem_reverse.1 hc)), List.reverse_reverse]

theorem readFloat_padLeft (w n : ℕ) : readFloat (padLeft w (natStr n)) = some (n : ℚ) := by
  unfold readFloat
  rw [strip_padLeft w _ fun c hc => isWs_of_isDigit (natStr_isDigit n c hc)]
  split
  · rename_i h; exact absurd h (natStr_head_ne n '-' (by decide) _)
  · rename_i h; exact absurd h (natStr_head_ne n '+' (by decide) _)
  · exact readUnsigned_natStr n

theorem readFloat_intStr (z : ℤ) : readFloat (intStr z) = some (z : ℚ) := by
  unfold intStr
  split
  · rename_i h
    unfold readFloat
    rw [strip_eq_self (by
      intro c hc
      rcases List.mem_cons.1 hc with rfl | hc
      · decide
      · exact isWs_of_isDigit (natStr_isDigit _ c hc))]
    simp only [readUnsigned_natStr, Option.map_some, Option.some.injEq]
    have : ((z.natAbs : ℕ) : ℤ) = -z := by omega
    have h2 : ((z.natAbs : ℕ) : ℚ) = ((-z : ℤ) : ℚ) := by rw [← this]; exact (Int.cast_natCast _).symm
    rw [h2]; push_cast; ring
  · rename_i h
    have h2 : ((z.natAbs : ℕ) : ℚ) = (z : ℚ) := by
      have : ((z.natAbs : ℕ) : ℤ) = z := by omega
      rw [← Int.cast_natCast, this]
    have := readFloat_padLeft 0 z.natAbs
    unfold padLeft at this
    simp only [Nat.zero_sub, List.replicate_zero, List.nil_append] at this
    rw [this, h2]

/-! ### Lines -/

/-- A text of lines, each with a line end. -/
theorem splitChar_textLines (ls : List Str) (h : ∀ l ∈ ls, '\n' ∉ l) :
    splitChar '\n' ((ls.map fun l => l ++ ['\n']).flatten) = ls ++ [[]] := by
  induction ls with
  | nil => rfl
  | cons l ls ih =>
    rw [List.map_cons, List.flatten_cons, List.append_assoc, List.singleton_append, splitChar_append (h l (by simp)),
      ih fun x hx => h x (List.mem_cons_of_mem _ hx)]
    rfl

theorem loadCsv_end (ls : List Str) : loadCsv (ls ++ [[]]) = loadCsv ls := by
  unfold loadCsv
  rw [List.map_append, List.filter_append]
  simp

theorem loadCsv_comment (t : Str) (ls : List Str) : loadCsv (('#' :: t) :: ls) = loadCsv ls := by
  unfold loadCsv
  rw [List.map_cons, List.takeWhile_cons_of_neg (by decide), List.filter_cons_of_neg (by simp)]

theorem loadCsv_rows (ls : List Str) (h : ∀ l ∈ ls, '#' ∉ l ∧ l ≠ []) : loadCsv ls = ls.map (splitChar ',') := by
  unfold loadCsv
  have h1 : (ls.map fun l => l.takeWhile (· != '#')) = ls := by
    conv_rhs => rw [← List.map_id ls]
    apply List.map_congr_left
    intro l hl
    exact takeWhile_ne_hash (h l hl).1
  rw [h1, List.filter_eq_self.2]
  intro l hl
  simpa using (h l hl).2

theorem optMapM_some {α β : Type} {f : α → Option β} {g : α → β} {l : List α} (h : ∀ x ∈ l, f x = some (g x)) :
    l.mapM f = some (l.map g) := by
  induction l with
  | nil => rfl
  | cons a t ih =>
    rw [List.mapM_cons, h a (by simp), ih (fun x hx => h x (List.mem_cons_of_mem _ hx))]
    rfl

theorem optMapM_none {α β : Type} {f : α → Option β} {l : List α} {a : α} (ha : a ∈ l) (h : f a = none) : l.mapM f = none := by
  induction l with
  | nil => cases ha
  | cons b t ih =>
    rw [List.mapM_cons]
    cases hb : f b with
    | none => rfl
    | some y =>
      rcases List.mem_cons.1 ha with rfl | ha
      · rw [h] at hb; cases hb
      · rw [ih ha]; rfl

/-! ### Result files -/

theorem padLeft_chars (w n : ℕ) : ∀ c ∈ padLeft w (natStr n), c = ' ' ∨ isDigit c = true := by
  intro c hc
  unfold padLeft at hc
  rcases List.mem_append.1 hc with hc | hc
  · exact .inl (List.mem_replicate.1 hc).2
  · exact .inr (natStr_isDigit _ c hc)

theorem intStr_chars (z : ℤ) : ∀ c ∈ intStr z, isNumChar c = true := by
  intro c hc
  unfold intStr at hc
  split at hc
  · rcases List.mem_cons.1 hc with rfl | hc
    · decide
    · exact isNumChar_digit (natStr_isDigit _ c hc)
  · exact isNumChar_digit (natStr_isDigit _ c hc)

/-- Characters of the lines of a result file. -/
def isRowChar (c : Char) : Bool := isNumChar c || c == ' ' || c == ','

theorem isRowChar_num {c : Char} (h : isNumChar c = true) : isRowChar c = true := by simp [isRowChar, h]

theorem isRowChar_pad {c : Char} (h : c = ' ' ∨ isDigit c = true) : isRowChar c = true := by
  rcases h with rfl | h
  · decide
  · exact isRowChar_num (isNumChar_digit h)

theorem joinChar_chars (c : Char) (fs : List Str) : ∀ x ∈ joinChar c fs, x = c ∨ ∃ f ∈ fs, x ∈ f := by
  induction fs with
  | nil => intro x hx; cases hx
  | cons f fs ih =>
    cases fs with
    | nil => intro x hx; exact .inr ⟨f, by simp, hx⟩
    | cons g gs =>
      intro x hx
      rw [joinChar] at hx
      · rcases List.mem_append.1 hx with hx | hx
        · exact .inr ⟨f, by simp, hx⟩
        · rcases List.mem_cons.1 hx with rfl | hx
          · exact .inl rfl
          · rcases ih x hx with h | ⟨y, hy, h⟩
            · exact .inl h
            · exact .inr ⟨y, List.mem_cons_of_mem _ hy, h⟩
      · simp

theorem fitText_chars (f : FitValues) : ∀ s ∈ [(fitText f).cx, (fitText f).cy, (fitText f).x, (fitText f).y, (fitText f).dx,
    (fitText f).dy, (fitText f).a, (fitText f).alpha, (fitText f).wx, (fitText f).wy, (fitText f).success, (fitText f).fun',
    (fitText f).nfev, (fitText f).time], ∀ c ∈ s, isNumChar c = true ∨ c = ' ' := by
  have hp : ∀ w n, ∀ c ∈ padLeft w (natStr n), isNumChar c = true ∨ c = ' ' := fun w n c hc =>
    (padLeft_chars w n c hc).elim .inr fun h => .inl (isNumChar_digit h)
  have hs : ∀ q, ∀ c ∈ fmtSci q, isNumChar c = true ∨ c = ' ' := fun q c hc => .inl (fmtSci_chars q c hc)
  intro s hs'
  simp only [List.mem_cons, List.not_mem_nil, or_false] at hs'
  rcases hs' with rfl | rfl | rfl | rfl | rfl | rfl | rfl | rfl | rfl | rfl | rfl | rfl | rfl | rfl
  all_goals first | exact hs _ | exact hp _ _

theorem rowText_chars (id arr : ℕ) (m : Measured ℚ) : ∀ s ∈ [(rowText id arr m).ledId, (rowText id arr m).array,
    (rowText id arr m).sum, (rowText id arr m).mean, (rowText id arr m).max], ∀ c ∈ s, isNumChar c = true ∨ c = ' ' := by
  intro s hs
  simp only [List.mem_cons, List.not_mem_nil, or_false] at hs
  rcases hs with rfl | rfl | rfl | rfl | rfl
  · exact fun c hc => (padLeft_chars 4 id c hc).elim .inr fun h => .inl (isNumChar_digit h)
  · exact fun c hc => (padLeft_chars 2 arr c hc).elim .inr fun h => .inl (isNumChar_digit h)
  · exact fun c hc => .inl (fmtSci_chars _ c hc)
  · exact fun c hc => .inl (fmtSci_chars _ c hc)
  · exact fun c hc => .inl (intStr_chars _ c hc)

/-- A line of a result file without its end. -/
def rowLine (fit : Option (ℕ → FitValues)) (r : ℕ × ℕ × Measured ℚ) : Str :=
  rowString (rowText r.1 r.2.1 r.2.2) (fit.map fun f => fitText (f r.1))

theorem rowLine_chars (fit : Option (ℕ → FitValues)) (r : ℕ × ℕ × Measured ℚ) : ∀ c ∈ rowLine fit r, isRowChar c = true := by
  have hor : ∀ c, isNumChar c = true ∨ c = ' ' → isRowChar c = true := by
    rintro c (h | rfl)
    · exact isRowChar_num h
    · decide
  intro c hc
  unfold rowLine rowString at hc
  rcases List.mem_append.1 hc with hc | hc
  · unfold mainString at hc
    rcases joinChar_chars _ _ c hc with rfl | ⟨s, hs, hc⟩
    · decide
    · exact hor c (rowText_chars _ _ _ s hs c hc)
  · cases fit with
    | none => cases hc
    | some f =>
      simp only [Option.map_some] at hc
      unfold fitString at hc
      have hf := fitText_chars (f r.1)
      rcases List.mem_append.1 hc with hc | hc
      · exact hor c (hf _ (by simp) c hc)
      · rcases List.mem_cons.1 hc with rfl | hc
        · decide
        · rcases List.mem_cons.1 hc with rfl | hc
          · decide
          · rcases joinChar_chars _ _ c hc with rfl | ⟨s, hs, hc⟩
            · decide
            · exact hor c (hf s (List.mem_cons_of_mem _ hs) c hc)

theorem rowLine_notMem (fit : Option (ℕ → FitValues)) (r : ℕ × ℕ × Measured ℚ) (c : Char) (hc : isRowChar c = false) :
    c ∉ rowLine fit r := by
  intro h
  rw [rowLine_chars fit r c h] at hc
  cases hc

theorem rowLine_ne_nil (fit : Option (ℕ → FitValues)) (r : ℕ × ℕ × Measured ℚ) : rowLine fit r ≠ [] := by
  unfold rowLine rowString mainString joinChar
  simp

/-- First header line. -/
def header1 (root name : Str) (channel : ℕ) (time : Str) : Str :=
  " image root = ".toList ++ root ++ ", photo file name = ".toList ++ name ++ ", channel = ".toList ++ natStr channel ++
    ", time[s] = ".toList ++ time

/-- Second header line. -/
def header2 (fit : Bool) : Str :=
  " id,line,sum_col_value,average_col_value,max_col_value".toList ++
    (if fit then ",led_center_x, led_center_y,x,y,dx,dy,A,alpha,wx,wy,fit_success,fit_fun,fit_nfev,fit_time// all spatial quantities in pixel coordinates".toList
      else [])

theorem headerText_lines (root name : Str) (channel : ℕ) (time : Str) (fit : Bool) :
    headerText root name channel time fit = ('#' :: header1 root name channel time ++ ['\n']) ++ ('#' :: header2 fit ++ ['\n']) := by
  have e1 : "# image root = ".toList = '#' :: " image root = ".toList := by decide +kernel
  have e2 : "# id,line,sum_col_value,average_col_value,max_col_value".toList =
      '#' :: " id,line,sum_col_value,average_col_value,max_col_value".toList := by decide +kernel
  have e3 : ",led_center_x, led_center_y,x,y,dx,dy,A,alpha,wx,wy,fit_success,fit_fun,fit_nfev,fit_time// all spatial quantities in pixel coordinates\n".toList =
      ",led_center_x, led_center_y,x,y,dx,dy,A,alpha,wx,wy,fit_success,fit_fun,fit_nfev,fit_time// all spatial quantities in pixel coordinates".toList ++ ['\n'] := by
    decide +kernel
  have e4 : "\n".toList = ['\n'] := by decide +kernel
  unfold headerText header1 header2
  rw [e1, e2, e3, e4]
  cases fit
  · simp only [List.append_assoc, List.cons_append, List.nil_append, Bool.false_eq_true, if_false]
  · simp only [List.append_assoc, List.cons_append, List.nil_append, if_true]

theorem header2_noLine (fit : Bool) : '\n' ∉ '#' :: header2 fit := by cases fit <;> decide +kernel

theorem header1_noLine (root name : Str) (channel : ℕ) (time : Str) (h1 : '\n' ∉ root) (h2 : '\n' ∉ name) (h3 : '\n' ∉ time) :
    '\n' ∉ '#' :: header1 root name channel time := by
  have hd : '\n' ∉ natStr channel := fun h => absurd (natStr_isDigit _ _ h) (by decide)
  unfold header1
  simp only [List.mem_cons, List.mem_append, not_or]
  refine ⟨by decide, ⟨⟨⟨⟨⟨⟨by decide, h1⟩, by decide⟩, h2⟩, by decide⟩, hd⟩, by decide⟩, h3⟩

/-- The fields of the rows of a result file. -/
theorem loadCsv_resultText (root name : Str) (channel : ℕ) (time : Str) (fit : Option (ℕ → FitValues))
    (rows : List (ℕ × ℕ × Measured ℚ)) (h1 : '\n' ∉ root) (h2 : '\n' ∉ name) (h3 : '\n' ∉ time) (text : Str)
    (h : resultText root name channel time fit rows = .ok text) :
    loadCsv (splitChar '\n' text) = rows.map fun r => splitChar ',' (rowLine fit r) := by
  have ht : text = ((('#' :: header1 root name channel time) :: ('#' :: header2 fit.isSome) :: rows.map (rowLine fit)).map
      fun l => l ++ ['\n']).flatten := by
    unfold resultText at h
    match rows, h with
    | r :: rs, h =>
      have h := (Except.ok.inj h).symm
      have hl : (r :: rs).map (resultLine fit) = ((r :: rs).map (rowLine fit)).map fun l => l ++ ['\n'] := by
        rw [List.map_map]; rfl
      rw [h, headerText_lines, hl]
      simp only [List.map_cons, List.flatten_cons, List.append_assoc]
  rw [ht, splitChar_textLines, loadCsv_end, loadCsv_comment, loadCsv_comment, loadCsv_rows]
  · rw [List.map_map]; rfl
  · intro l hl
    obtain ⟨r, _, rfl⟩ := List.mem_map.1 hl
    exact ⟨rowLine_notMem fit r '#' (by decide), rowLine_ne_nil fit r⟩
  · intro l hl
    rcases List.mem_cons.1 hl with rfl | hl
    · exact header1_noLine root name channel time h1 h2 h3
    · rcases List.mem_cons.1 hl with rfl | hl
      · exact header2_noLine _
      · obtain ⟨r, _, rfl⟩ := List.mem_map.1 hl
        exact rowLine_notMem fit r '\n' (by decide)

theorem notMem_numPad {s : Str} (h : ∀ c ∈ s, isNumChar c = true ∨ c = ' ') : ',' ∉ s := by
  intro hc
  rcases h _ hc with h | h
  · revert h; decide
  · revert h; decide

/-- The fields of a row without fit. -/
theorem rowLine_fields (r : ℕ × ℕ × Measured ℚ) : splitChar ',' (rowLine none r) =
    [padLeft 4 (natStr r.1), padLeft 2 (natStr r.2.1), fmtSci r.2.2.sum, fmtSci r.2.2.mean, intStr ⌊r.2.2.max⌋] := by
  unfold rowLine rowString mainString
  simp only [Option.map_none, List.append_nil]
  refine splitChar_joinChar (by simp) fun f hf => notMem_numPad (rowText_chars r.1 r.2.1 r.2.2 f hf)

/-- The fields of a row with fit. -/
theorem rowLine_fields_fit (fit : ℕ → FitValues) (r : ℕ × ℕ × Measured ℚ) : splitChar ',' (rowLine (some fit) r) =
    [padLeft 4 (natStr r.1), padLeft 2 (natStr r.2.1), fmtSci r.2.2.sum, fmtSci r.2.2.mean, intStr ⌊r.2.2.max⌋ ++ fmtSci (fit r.1).cx,
      ' ' :: fmtSci (fit r.1).cy, fmtSci (fit r.1).x, fmtSci (fit r.1).y, fmtSci (fit r.1).dx, fmtSci (fit r.1).dy, fmtSci (fit r.1).a,
      fmtSci (fit r.1).alpha, fmtSci (fit r.1).wx, fmtSci (fit r.1).wy, padLeft 12 (natStr (if (fit r.1).success then 1 else 0)),
      fmtSci (fit r.1).fn, padLeft 9 (natStr (fit r.1).nfev), fmtSci (fit r.1).time] := by
  have hr := rowText_chars r.1 r.2.1 r.2.2
  have hf := fitText_chars (fit r.1)
  have := split_fit_row (rowText r.1 r.2.1 r.2.2) (fitText (fit r.1)) (notMem_numPad (hr _ (by simp))) (notMem_numPad (hr _ (by simp)))
    (notMem_numPad (hr _ (by simp))) (notMem_numPad (hr _ (by simp))) (notMem_numPad (hr _ (by simp)))
    (fun s hs => notMem_numPad (hf s hs))
  exact this

theorem readFloat_blank (s : Str) : readFloat (' ' :: s) = readFloat s := by
  unfold readFloat
  have : strip (' ' :: s) = strip s := by
    unfold strip
    rw [List.dropWhile_cons_of_pos (by decide)]
  rw [this]

/-- The numbers of a row without fit. -/
theorem readRow (r : ℕ × ℕ × Measured ℚ) : (splitChar ',' (rowLine none r)).mapM readFloat =
    some [(r.1 : ℚ), (r.2.1 : ℚ), sciVal r.2.2.sum, sciVal r.2.2.mean, (⌊r.2.2.max⌋ : ℚ)] := by
  rw [rowLine_fields]
  simp only [List.mapM_cons, List.mapM_nil, readFloat_padLeft, readFloat_fmtSci, readFloat_intStr]
  rfl

/-! ### The maximum and the first fit value run together -/

theorem readDecimal_minus (s : Str) (h : '-' ∈ s) : readDecimal s = none := by
  unfold readDecimal
  have hj := joinChar_splitChar '.' s
  split
  · rename_i a ha
    rw [ha] at hj
    have : a = s := hj
    rw [this, parseNat_none '-' h (by decide)]; rfl
  · rename_i a f ha
    rw [ha] at hj
    have hs : s = a ++ '.' :: f := hj.symm
    split
    · rfl
    · rw [parseNat_none '-' _ (by decide)]
      · rfl
      · rw [hs] at h
        simpa using h
  · rfl

/-- Run together with a negative number the maximum cannot be read. -/
theorem readFloat_negative (n : ℕ) (q : ℚ) (hq : q < 0) : readFloat (natStr n ++ fmtSci q) = none := by
  unfold readFloat
  rw [strip_eq_self (by
    intro c hc
    rcases List.mem_append.1 hc with hc | hc
    · exact isWs_of_isDigit (natStr_isDigit _ c hc)
    · exact isWs_isNumChar (fmtSci_chars q c hc))]
  have hstart : ∀ x t, isDigit x = false → natStr n ++ fmtSci q ≠ x :: t := by
    intro x t hx h
    cases hn : natStr n with
    | nil => exact natStr_ne_nil _ hn
    | cons c cs =>
      rw [hn] at h
      have hc := natStr_isDigit n c (by rw [hn]; simp)
      rw [(List.cons.inj h).1, hx] at hc
      cases hc
  split
  · rename_i t h; exact absurd h (hstart _ _ (by decide))
  · rename_i t h; exact absurd h (hstart _ _ (by decide))
  · set p := (sciParts |q|) with hp
    have htext : natStr n ++ fmtSci q =
        (natStr n ++ '-' :: (natStr (p.1 / 10000) ++ '.' :: zfill 4 (natStr (p.1 % 10000)))) ++ 'e' :: expText p.2 := by
      unfold fmtSci
      rw [if_pos hq]
      simp [List.append_assoc, ← hp]
    have hne : 'e' ∉ natStr n ++ '-' :: (natStr (p.1 / 10000) ++ '.' :: zfill 4 (natStr (p.1 % 10000))) := by
      intro h
      rw [List.mem_append, List.mem_cons, List.mem_append, List.mem_cons] at h
      rcases h with h | h | h | h | h
      · exact absurd (natStr_isDigit _ _ h) (by decide)
      · revert h; decide
      · exact absurd (natStr_isDigit _ _ h) (by decide)
      · revert h; decide
      · exact absurd (zfill_natStr_isDigit _ _ _ h) (by decide)
    have hexp : 'e' ∉ expText p.2 := by
      intro h
      unfold expText at h
      rcases List.mem_cons.1 h with h | h
      · revert h; split <;> decide
      · exact absurd (zfill_natStr_isDigit _ _ _ h) (by decide)
    unfold readUnsigned
    rw [htext, splitChar_append hne, splitChar_of_notMem hexp]
    simp only
    rw [readDecimal_minus _ (by simp)]

theorem digitsVal_append_digit (n d : ℕ) (hd : d < 10) : digitsVal 0 (natStr n ++ natStr d) = some (10 * n + d) := by
  rw [digitsVal_append, digitsVal_natStr, Option.bind_some, natStr_eq d, if_pos hd]
  have h0 := digitsVal_natStr d
  rw [natStr_eq d, if_pos hd] at h0
  cases hk : charDigit (digitChar d) with
  | none => simp [digitsVal, hk] at h0
  | some k =>
    simp only [digitsVal, hk, Option.some.injEq] at h0 ⊢
    omega

/-- Run together with a number from zero on the maximum `n` is read as a much larger number. -/
theorem readFloat_concat (n : ℕ) (q : ℚ) (hq : 0 ≤ q) :
    readFloat (natStr n ++ fmtSci q) = some (((n * 100000 + (sciParts q).1 : ℕ) : ℚ) * (10 : ℚ) ^ ((sciParts q).2 - 4)) := by
  have hm : (sciParts q).1 < 100000 := by
    rcases eq_or_lt_of_le hq with rfl | h
    · simp [sciParts]
    · exact (sciParts_spec q h).2.1
  have hlt : (sciParts q).1 / 10000 < 10 := by omega
  have htext : natStr n ++ fmtSci q = (natStr n ++ natStr ((sciParts q).1 / 10000)) ++ '.' ::
      zfill 4 (natStr ((sciParts q).1 % 10000)) ++ 'e' :: expText (sciParts q).2 := by
    unfold fmtSci
    rw [if_neg (not_lt.2 hq), abs_of_nonneg hq, List.nil_append, ← List.append_assoc, ← List.append_assoc]
  unfold readFloat
  rw [strip_eq_self (by
    intro c hc
    rcases List.mem_append.1 hc with hc | hc
    · exact isWs_of_isDigit (natStr_isDigit _ c hc)
    · exact isWs_isNumChar (fmtSci_chars q c hc))]
  have hstart : ∀ x t, isDigit x = false → natStr n ++ fmtSci q ≠ x :: t := by
    intro x t hx h
    cases hn : natStr n with
    | nil => exact natStr_ne_nil _ hn
    | cons c cs =>
      rw [hn] at h
      have hc := natStr_isDigit n c (by rw [hn]; simp)
      rw [(List.cons.inj h).1, hx] at hc
      cases hc
  split
  · rename_i t h; exact absurd h (hstart _ _ (by decide))
  · rename_i t h; exact absurd h (hstart _ _ (by decide))
  · rw [htext, readUnsigned_digits _ (10 * n + (sciParts q).1 / 10000) _ _ (by simp [natStr_ne_nil]) (digitsVal_append_digit n _ hlt)
      (Nat.mod_lt _ (by decide))]
    · have : (10 * n + (sciParts q).1 / 10000) * 10000 + (sciParts q).1 % 10000 = n * 100000 + (sciParts q).1 := by omega
      rw [this]
    · intro c hc
      rcases List.mem_append.1 hc with hc | hc
      · exact natStr_isDigit _ c hc
      · exact natStr_isDigit _ c hc

end Ledsa
