import Verif.Model.Time
import Mathlib.Tactic.Ring
import Mathlib.Tactic.Linarith
/-
Properties C06 - C08: times.
-/
namespace Ledsa

/-! ### C06 experiment time -/

/-- C06 (differences): experiment times of any two images differ by exactly the difference of their capture times. -/
theorem C06_time_differences (exif1 exif2 day sod : Int) :
    experimentTime exif2 day sod - experimentTime exif1 day sod = exif2 - exif1 := by
  unfold experimentTime; omega

/-- The wish: with the derived start time (on the configured date) the first image is at time 0. -/
def FirstImageAtZero : Prop :=
  ∀ exifFirst offset day : Int, day = exifFirst / daySec →
    experimentTime exifFirst day (startTimeOfDay exifFirst offset) = 0

/-- C06 is violated: with a clock offset of 5 s the first image gets experiment time 5. -/
theorem C06_first_image_false : ¬ FirstImageAtZero := by
  intro h
  have := h 1000 5 0 (by decide)
  revert this; decide

/-- C06: closed form of the experiment time with the derived start time: capture time difference, plus the clock
offset, plus whole days between the day of the start and the configured date. -/
theorem C06_experiment_time_value (exif exifFirst offset day : Int) :
    experimentTime exif day (startTimeOfDay exifFirst offset) =
      (exif - exifFirst) + offset + daySec * ((exifFirst - offset) / daySec - day) := by
  have := Int.mul_ediv_add_emod (exifFirst - offset) daySec
  unfold experimentTime startDatetime startTimeOfDay
  generalize (exifFirst - offset) / daySec = q at *
  generalize (exifFirst - offset) % daySec = r at *
  have e : daySec * (q - day) = daySec * q - day * daySec := by ring
  rw [e]; omega

/-- C06 (partial; missing: offset ≠ 0, start before midnight of the configured date): without clock offset and with
the date of the first image configured, experiment time is the time since the first image. -/
theorem C06_first_image_partial (exif exifFirst day : Int) (hd : day = exifFirst / daySec) :
    experimentTime exif day (startTimeOfDay exifFirst 0) = exif - exifFirst := by
  rw [C06_experiment_time_value, hd, Int.sub_zero]
  simp

example : experimentTime (63 * 86400 + 40) 62 (startTimeOfDay (62 * 86400 + 86390) 0) = 50 := by
  rw [C06_first_image_partial _ _ _ (by decide)]; decide

/-- C06: exactly when the first image is at time 0. -/
theorem C06_first_image_iff (exifFirst offset day : Int) :
    experimentTime exifFirst day (startTimeOfDay exifFirst offset) = 0 ↔
      offset = daySec * (day - (exifFirst - offset) / daySec) := by
  rw [C06_experiment_time_value]
  generalize (exifFirst - offset) / daySec = q
  have e : daySec * (q - day) = - (daySec * (day - q)) := by ring
  rw [e]; constructor <;> intro h <;> omega

/-- C06 is also violated by a start before midnight of the configured date: one second of offset shifts all
experiment times by a day. -/
theorem C06_midnight_false : ∃ exifFirst offset day : Int, day = exifFirst / daySec ∧ offset = 1 ∧
    experimentTime exifFirst day (startTimeOfDay exifFirst offset) = 1 - daySec := by
  refine ⟨86400 * 5, 1, 5, by decide, rfl, by decide⟩

/-- C06: the real time column is the capture time minus an integral clock offset. -/
theorem C06_real_time (exif offset : Int) :
    realTimeMillis exif (intStr offset) = .ok (1000 * (exif - offset)) := by
  have hdot : '.' ∉ intStr offset := by
    unfold intStr
    split
    · simp only [List.mem_cons, not_or]
      exact ⟨by decide, fun h => absurd (natStr_isDigit _ _ h) (by decide)⟩
    · exact fun h => absurd (natStr_isDigit _ _ h) (by decide)
  unfold realTimeMillis offsetMillis
  rw [splitChar_of_notMem hdot]
  simp only [pyInt_intStr]
  congr 1; omega

example : realTimeMillis 100 "-7".toList = .ok 107000 := by decide

/-! ### C07 fractional offsets -/

/-- A decimal number text: optional minus sign, digits, a point, at least one digit. -/
def decimalText (neg : Bool) (a : Nat) (b : Str) : Str :=
  (if neg then ['-'] else []) ++ natStr a ++ '.' :: b

/-- `ms` milliseconds are the value of the decimal number `±a.b`, where `b` is a digit string of value `v`:
`ms * 10^|b| = ± (1000 a 10^|b| + 1000 v)`. -/
def IsDecimalMillis (neg : Bool) (a : Nat) (b : Str) (v : Nat) (ms : Int) : Prop :=
  ms * 10 ^ b.length = (if neg then -1 else 1) * (1000 * (a : Int) * 10 ^ b.length + 1000 * (v : Int))

theorem offsetMillis_decimal (neg : Bool) (a : Nat) (b : Str) (v : Nat)
    (hb : ∀ c ∈ b, isDigit c = true) (hv : parseNat b = some v) :
    offsetMillis (decimalText neg a b) = .ok ((if neg then -1 else 1) * (1000 * (a : Int)) + v) := by
  have hbdot : '.' ∉ b := fun h => absurd (hb _ h) (by decide)
  have hadot : '.' ∉ (if neg then ['-'] else []) ++ natStr a := by
    have : '.' ∉ natStr a := fun h => absurd (natStr_isDigit a '.' h) (by decide)
    cases neg <;> simp [this]
  unfold offsetMillis decimalText
  rw [splitChar_append hadot, splitChar_of_notMem hbdot]
  have e : ((if neg then ['-'] else []) ++ natStr a) = if neg then '-' :: natStr a else natStr a := by
    cases neg <;> simp
  rw [e]
  have h2 := pyInt_of_digits hb hv
  cases neg with
  | false =>
    simp only [Bool.false_eq_true, if_false, pyInt_natStr, h2]
    congr 1; ring
  | true =>
    have h1 : pyInt ('-' :: natStr a) = .ok (-(a : Int)) := by
      have hst : strip ('-' :: natStr a) = '-' :: natStr a := by
        apply strip_eq_self
        intro c hc
        simp only [List.mem_cons] at hc
        rcases hc with rfl | hc
        · decide
        · exact isWs_of_isDigit (natStr_isDigit _ c hc)
      unfold pyInt
      rw [hst]
      simp only [parseNat_natStr]
    simp only [if_true, h1, h2]
    congr 1; ring

/-- C07 is violated: the offset `1.5` shifts the real time by 1.005 s. -/
theorem C07_fraction_false :
    offsetMillis "1.5".toList = .ok 1005 ∧ ¬ IsDecimalMillis false 1 "5".toList 5 1005 := by
  refine ⟨by decide, ?_⟩
  unfold IsDecimalMillis; decide

/-- C07 (partial; missing: other numbers of fractional digits, negative numbers): exactly which decimal offsets are
applied at their value: those with zero fraction, and the non-negative ones with three fractional digits. -/
theorem C07_fraction_partial (neg : Bool) (a : Nat) (b : Str) (v : Nat)
    (hb : ∀ c ∈ b, isDigit c = true) (hv : parseNat b = some v) :
    (∃ ms, offsetMillis (decimalText neg a b) = .ok ms ∧ IsDecimalMillis neg a b v ms) ↔
      v = 0 ∨ (neg = false ∧ b.length = 3) := by
  rw [offsetMillis_decimal neg a b v hb hv]
  have hp : (0 : Int) < 10 ^ b.length := by positivity
  constructor
  · rintro ⟨ms, h1, h2⟩
    simp only [Except.ok.injEq] at h1
    subst h1
    unfold IsDecimalMillis at h2
    cases neg with
    | false =>
      simp only [Bool.false_eq_true, if_false, one_mul] at h2
      have h3 : (v : Int) * 10 ^ b.length = (v : Int) * 1000 := by linarith
      by_cases h0 : v = 0
      · exact Or.inl h0
      · right
        refine ⟨rfl, ?_⟩
        have h4 : (10 : Int) ^ b.length = 1000 := by
          have hv0 : (v : Int) ≠ 0 := by omega
          exact Int.eq_of_mul_eq_mul_left hv0 h3
        have h5 : (10 : Nat) ^ b.length = 10 ^ 3 := by
          have : ((10 ^ b.length : Nat) : Int) = ((10 ^ 3 : Nat) : Int) := by push_cast; rw [h4]
          exact_mod_cast this
        exact Nat.pow_right_injective (le_refl 2 |>.trans (by norm_num)) h5
    | true =>
      simp only [if_true] at h2
      left
      have h3 : (v : Int) * 10 ^ b.length = - (v : Int) * 1000 := by linarith
      have h4 : (0 : Int) ≤ (v : Int) * 10 ^ b.length := by positivity
      omega
  · rintro (h0 | ⟨rfl, h3⟩)
    · refine ⟨_, rfl, ?_⟩
      unfold IsDecimalMillis
      rw [h0]; cases neg <;> push_cast <;> ring
    · refine ⟨_, rfl, ?_⟩
      unfold IsDecimalMillis
      rw [h3]; simp; ring

example : ∃ ms, offsetMillis "12.250".toList = .ok ms ∧ IsDecimalMillis false 12 "250".toList 250 ms :=
  (C07_fraction_partial false 12 "250".toList 250 (by decide) (by decide)).2 (Or.inr ⟨rfl, by decide⟩)

/-- C07: with a fractional offset the start time cannot be derived at all (`getint` fails), so the offset only works
if `start_time` is given. -/
theorem C07_getint_fails (neg : Bool) (a : Nat) (b : Str) (hb : ∀ c ∈ b, isDigit c = true) :
    pyInt (decimalText neg a b) = .error .valueError := by
  have hnone : parseNat (natStr a ++ '.' :: b) = none := parseNat_none '.' (by simp) (by decide)
  have hst : strip (decimalText neg a b) = decimalText neg a b := by
    apply strip_eq_self
    intro c hc
    unfold decimalText at hc
    simp only [List.mem_append, List.mem_cons] at hc
    rcases hc with (hc | hc) | rfl | hc
    · cases neg <;> simp at hc
      subst hc; decide
    · exact isWs_of_isDigit (natStr_isDigit _ c hc)
    · decide
    · exact isWs_of_isDigit (hb c hc)
  unfold pyInt
  rw [hst]
  cases neg with
  | true => simp [decimalText, hnone]
  | false =>
    simp only [decimalText, Bool.false_eq_true, if_false, List.nil_append]
    split
    · rename_i t heq
      have : natStr a ≠ [] := natStr_ne_nil a
      cases hn : natStr a with
      | nil => exact absurd hn this
      | cons x xs =>
        rw [hn] at heq
        simp only [List.cons_append, List.cons.injEq] at heq
        exact absurd hn (heq.1 ▸ natStr_head_ne a '-' (by decide) xs)
    · rename_i t heq
      cases hn : natStr a with
      | nil => exact absurd hn (natStr_ne_nil a)
      | cons x xs =>
        rw [hn] at heq
        simp only [List.cons_append, List.cons.injEq] at heq
        exact absurd hn (heq.1 ▸ natStr_head_ne a '+' (by decide) xs)
    · rw [hnone]

example : pyInt "2.500".toList = .error .valueError := C07_getint_fails false 2 "500".toList (by decide)

/-! ### C08 dates -/

/-- C08: both notations give the same result, whatever the three fields are. -/
theorem C08_same_day (y m d time : Str) (hy : ':' ∉ y ∧ '.' ∉ y) (hm : ':' ∉ m ∧ '.' ∉ m) (hd : ':' ∉ d ∧ '.' ∉ d) :
    getDatetimeFromStr (joinChar ':' [y, m, d]) time = getDatetimeFromStr (joinChar '.' [d, m, y]) time := by
  unfold getDatetimeFromStr
  have h1 : ':' ∈ joinChar ':' [y, m, d] := by simp [joinChar]
  have h2 : ':' ∉ joinChar '.' [d, m, y] := by simp [joinChar, hy.1, hm.1, hd.1]
  rw [if_pos h1, if_neg h2, splitChar_joinChar (by simp) (by simp [hy.1, hm.1, hd.1]),
    splitChar_joinChar (by simp) (by simp [hy.2, hm.2, hd.2])]

example : getDatetimeFromStr "2018:11:27".toList "12:00:05".toList =
    getDatetimeFromStr "27.11.2018".toList "12:00:05".toList :=
  C08_same_day "2018".toList "11".toList "27".toList _ (by decide) (by decide) (by decide)

theorem strpField_zfill (k lo n : Nat) (h : n < 10 ^ (k + 1)) (hlo : lo ≤ k + 1) :
    strpField lo (k + 1) (zfill (k + 1) (natStr n)) = some n := by
  unfold strpField
  rw [zfill_natStr_length k n h, if_pos ⟨hlo, Nat.le_refl _⟩, parseNat_zfill_natStr]

/-- The text `HH:MM:SS`. -/
def clockText (hh mm ss : Nat) : Str :=
  joinChar ':' [zfill 2 (natStr hh), zfill 2 (natStr mm), zfill 2 (natStr ss)]

/-- C08: the point in time of a date and a time of day, in both notations: days since day 0 times 86400 seconds, plus hours,
minutes and seconds. -/
theorem C08_value (x : Date) (hx : x.Valid) (hh mm ss : Nat) (h1 : hh < 24) (h2 : mm < 60) (h3 : ss < 60) :
    getDatetimeFromStr (joinChar ':' [zfill 4 (natStr x.y), zfill 2 (natStr x.m), zfill 2 (natStr x.d)])
      (clockText hh mm ss) = .ok (((x.ordinal * 24 + hh) * 60 + mm) * 60 + ss) ∧
    getDatetimeFromStr (joinChar '.' [zfill 2 (natStr x.d), zfill 2 (natStr x.m), zfill 4 (natStr x.y)])
      (clockText hh mm ss) = .ok (((x.ordinal * 24 + hh) * 60 + mm) * 60 + ss) := by
  have hn : ∀ (c : Char) (k n : Nat), isDigit c = false → c ∉ zfill k (natStr n) :=
    fun c k n hc => notMem_of_isDigit (zfill_natStr_isDigit k n) hc
  have hd31 : x.d < 10 ^ (1 + 1) := by
    have h31 : daysInMonth x.y x.m ≤ 31 := by unfold daysInMonth; split <;> (split <;> omega)
    have := hx.2.2.2.2.2
    omega
  have hclock : (splitChar ':' (clockText hh mm ss)).map (strpField 1 2) = [some hh, some mm, some ss] := by
    unfold clockText
    rw [splitChar_joinChar (by simp) (by simp [hn ':' 2 _ (by decide)])]
    simp only [List.map_cons, List.map_nil]
    rw [strpField_zfill 1 1 hh (by omega) (by omega), strpField_zfill 1 1 mm (by omega) (by omega),
      strpField_zfill 1 1 ss (by omega) (by omega)]
  have hmk : mkDateTime (zfill 4 (natStr x.y)) (zfill 2 (natStr x.m)) (zfill 2 (natStr x.d)) (clockText hh mm ss) =
      .ok (((x.ordinal * 24 + hh) * 60 + mm) * 60 + ss) := by
    unfold mkDateTime
    rw [hclock, strpField_zfill 3 4 x.y (by have := hx.2.1; omega) (by omega),
      strpField_zfill 1 1 x.m (by have := hx.2.2.2.1; omega) (by omega), strpField_zfill 1 1 x.d hd31 (by omega)]
    simp only
    rw [if_pos ⟨hx, h1, h2, h3⟩]
    congr 1
    push_cast
    ring
  have hsame := C08_same_day (zfill 4 (natStr x.y)) (zfill 2 (natStr x.m)) (zfill 2 (natStr x.d)) (clockText hh mm ss)
    ⟨hn _ _ _ (by decide), hn _ _ _ (by decide)⟩ ⟨hn _ _ _ (by decide), hn _ _ _ (by decide)⟩
    ⟨hn _ _ _ (by decide), hn _ _ _ (by decide)⟩
  rw [← hsame, and_self]
  unfold getDatetimeFromStr
  rw [if_pos (by simp [joinChar]), splitChar_joinChar (by simp) (by simp [hn ':' _ _ (by decide)])]
  exact hmk

/-- The day after. -/
def Date.next (x : Date) : Date :=
  if x.d < daysInMonth x.y x.m then ⟨x.y, x.m, x.d + 1⟩
  else if x.m < 12 then ⟨x.y, x.m + 1, 1⟩
  else ⟨x.y + 1, 1, 1⟩

theorem daysBeforeYear_succ (y : Nat) (hy : 1 ≤ y) :
    daysBeforeYear (y + 1) = daysBeforeYear y + (if isLeap y then 366 else 365) := by
  obtain ⟨z, rfl⟩ : ∃ z, y = z + 1 := ⟨y - 1, by omega⟩
  unfold daysBeforeYear isLeap
  have e4 : (z + 1) / 4 = z / 4 + if 4 ∣ z + 1 then 1 else 0 := Nat.succ_div
  have e100 : (z + 1) / 100 = z / 100 + if 100 ∣ z + 1 then 1 else 0 := Nat.succ_div
  have e400 : (z + 1) / 400 = z / 400 + if 400 ∣ z + 1 then 1 else 0 := Nat.succ_div
  have hle : z / 100 ≤ z / 4 := Nat.div_le_div_left (by omega) (by omega)
  simp only [Nat.add_sub_cancel, e4, e100, e400, Nat.dvd_iff_mod_eq_zero]
  generalize z / 4 = a at *
  generalize z / 100 = b at *
  generalize z / 400 = c at *
  have i1 : (z + 1) % 100 = 0 → (z + 1) % 4 = 0 := by omega
  have i2 : (z + 1) % 400 = 0 → (z + 1) % 100 = 0 := by omega
  generalize (z + 1) % 4 = r4 at *
  generalize (z + 1) % 100 = r100 at *
  generalize (z + 1) % 400 = r400 at *
  by_cases h4 : r4 = 0 <;> by_cases h100 : r100 = 0 <;> by_cases h400 : r400 = 0 <;>
    simp [h4, h100, h400] at i1 i2 ⊢ <;> omega

theorem daysBeforeMonth_twelve (y : Nat) : daysBeforeMonth y 12 + 31 = if isLeap y then 366 else 365 := by
  simp only [daysBeforeMonth, daysInMonth]
  by_cases h : isLeap y = true <;> simp [h]

/-- C08: the day number increases by exactly one from a day to the next, through month ends, leap days and year
ends. Together with `ordinal` of the first day this determines it. -/
theorem C08_next_day (x : Date) (h : x.Valid) : x.next.ordinal = x.ordinal + 1 := by
  obtain ⟨y, m, d⟩ := x
  obtain ⟨hy1, hy2, hm1, hm2, hd1, hd2⟩ := h
  simp only at *
  unfold Date.next
  simp only
  split
  · simp [Date.ordinal]; omega
  · split
    · obtain ⟨m', rfl⟩ : ∃ m', m = m' + 1 := ⟨m - 1, by omega⟩
      simp [Date.ordinal, daysBeforeMonth]; omega
    · have hm : m = 12 := by omega
      subst hm
      have h1 := daysBeforeYear_succ y hy1
      have h2 := daysBeforeMonth_twelve y
      have h3 : daysInMonth y 12 = 31 := by simp [daysInMonth]
      simp only [Date.ordinal, h1]
      have : daysBeforeMonth (y + 1) 1 = 0 := rfl
      omega

example : Date.next ⟨2020, 2, 28⟩ = ⟨2020, 2, 29⟩ ∧ Date.next ⟨1900, 2, 28⟩ = ⟨1900, 3, 1⟩ ∧
    Date.ordinal ⟨1, 1, 1⟩ = 1 := by decide

/-- Lexicographic order of dates. -/
def Date.before (a b : Date) : Prop := a.y < b.y ∨ (a.y = b.y ∧ (a.m < b.m ∨ (a.m = b.m ∧ a.d < b.d)))

theorem daysBeforeYear_mono {a b : Nat} (ha : 1 ≤ a) (h : a < b) :
    daysBeforeYear a + (if isLeap a then 366 else 365) ≤ daysBeforeYear b := by
  induction b with
  | zero => omega
  | succ b ih =>
    by_cases hab : a = b
    · subst hab; rw [daysBeforeYear_succ a ha]
    · have := ih (by omega)
      have h2 := daysBeforeYear_succ b (by omega)
      omega

theorem daysBeforeMonth_mono (y : Nat) {a b : Nat} (ha : 1 ≤ a) (h : a < b) :
    daysBeforeMonth y a + daysInMonth y a ≤ daysBeforeMonth y b := by
  induction b with
  | zero => omega
  | succ b ih =>
    obtain ⟨b', rfl⟩ : ∃ b', b = b' + 1 := ⟨b - 1, by omega⟩
    by_cases hab : a = b' + 1
    · subst hab; simp [daysBeforeMonth]
    · have := ih (by omega)
      simp only [daysBeforeMonth]; omega

theorem ordinal_lt {a b : Date} (ha : a.Valid) (hb : b.Valid) (h : a.before b) : a.ordinal < b.ordinal := by
  obtain ⟨ya, ma, da⟩ := a
  obtain ⟨yb, mb, db⟩ := b
  obtain ⟨hy1, hy2, hm1, hm2, hd1, hd2⟩ := ha
  obtain ⟨ky1, ky2, km1, km2, kd1, kd2⟩ := hb
  simp only [Date.before, Date.ordinal] at *
  have hyear : daysBeforeMonth ya ma + da ≤ (if isLeap ya then 366 else 365) := by
    have h12 := daysBeforeMonth_twelve ya
    have h31 : daysInMonth ya 12 = 31 := by simp [daysInMonth]
    by_cases hm : ma = 12
    · subst hm; omega
    · have := daysBeforeMonth_mono ya hm1 (show ma < 12 by omega)
      omega
  rcases h with h | ⟨rfl, h | ⟨rfl, h⟩⟩
  · have := daysBeforeYear_mono hy1 h
    omega
  · have := daysBeforeMonth_mono ya hm1 h
    omega
  · omega

/-- C08: later days are later points in time, different days are different. -/
theorem C08_days_ordered (a b : Date) (ha : a.Valid) (hb : b.Valid) :
    (a.ordinal < b.ordinal ↔ a.before b) ∧ (a.ordinal = b.ordinal ↔ a = b) := by
  have tri : a.before b ∨ a = b ∨ b.before a := by
    obtain ⟨ya, ma, da⟩ := a
    obtain ⟨yb, mb, db⟩ := b
    simp only [Date.before, Date.mk.injEq]
    omega
  rcases tri with h | rfl | h
  · have := ordinal_lt ha hb h
    refine ⟨⟨fun _ => h, fun _ => this⟩, ⟨fun e => by omega, fun e => by subst e; omega⟩⟩
  · refine ⟨⟨fun h => by omega, fun h => by have := ordinal_lt ha ha h; omega⟩, by simp⟩
  · have := ordinal_lt hb ha h
    refine ⟨⟨fun h' => by omega, fun h' => by have := ordinal_lt ha hb h'; omega⟩,
      ⟨fun e => by omega, fun e => by subst e; omega⟩⟩

example : Date.Valid ⟨2000, 2, 29⟩ ∧ Date.Valid ⟨2018, 12, 31⟩ ∧ ¬ Date.Valid ⟨2100, 2, 29⟩ := by decide

end Ledsa
