import Verif.Model.RenameFiles
import Verif.Props.Rename
import Verif.Props.Time
import Verif.Props.Prompts
import Mathlib.Data.List.Nodup
import Mathlib.Tactic.Ring
import Mathlib.Tactic.Positivity
/-
C136: photos are numbered in the order in which they were taken.
-/
namespace Ledsa

/-- A point in time of the camera's clock. -/
structure Moment where
  date : Date
  hh : Nat
  mm : Nat
  ss : Nat
  micro : Nat
deriving DecidableEq

/-- A day of the calendar and a time of day. -/
def Moment.Valid (t : Moment) : Prop := t.date.Valid ∧ t.hh < 24 ∧ t.mm < 60 ∧ t.ss < 60 ∧ t.micro < 1000000

/-- Seconds since day 0. -/
def Moment.seconds (t : Moment) : Nat := ((t.date.ordinal * 24 + t.hh) * 60 + t.mm) * 60 + t.ss

/-- Microseconds since day 0. -/
def Moment.micros (t : Moment) : Nat := t.seconds * 1000000 + t.micro

/-- How a camera writes date and time: `YYYY:MM:DD HH:MM:SS`. -/
def Moment.text (t : Moment) : Str :=
  joinChar ':' [zfill 4 (natStr t.date.y), zfill 2 (natStr t.date.m), zfill 2 (natStr t.date.d)] ++ ' ' :: clockText t.hh t.mm t.ss

/-- How a camera writes the fraction of a second with `k` digits. -/
def Moment.fraction (t : Moment) (k : Nat) : Str := zfill k (natStr (t.micro / 10 ^ (6 - k)))

theorem splitChar_sep (c : Char) : ∀ (b t : Str), splitChar c (b ++ c :: t) = splitChar c b ++ splitChar c t
  | [], t => by simp [splitChar]
  | x :: b, t => by
    rw [List.cons_append, splitChar, splitChar, splitChar_sep c b t]
    split
    · rfl
    · obtain ⟨f, fs, e⟩ := List.exists_cons_of_ne_nil (splitChar_ne_nil c b)
      rw [e]
      rfl

theorem moment_text_chars (t : Moment) : '.' ∉ t.text := by
  have hn : ∀ (k n : Nat), '.' ∉ zfill k (natStr n) := fun k n => notMem_of_isDigit (zfill_natStr_isDigit k n) (by decide)
  simp [Moment.text, clockText, joinChar, hn]

theorem exifStamp_text (t : Moment) : exifStamp t.text = natStr (t.date.y % 100) ++ zfill 2 (natStr t.date.m) ++ zfill 2 (natStr t.date.d) := by
  have hs : ∀ (k n : Nat), ' ' ∉ zfill k (natStr n) := fun k n => notMem_of_isDigit (zfill_natStr_isDigit k n) (by decide)
  have hc : ∀ (k n : Nat), ':' ∉ zfill k (natStr n) := fun k n => notMem_of_isDigit (zfill_natStr_isDigit k n) (by decide)
  unfold exifStamp Moment.text
  rw [splitChar_sep, splitChar_of_notMem (c := ' ') (s := joinChar ':' _) (by simp [joinChar, hs])]
  simp only [List.cons_append, List.nil_append, List.headD_cons]
  rw [splitChar_joinChar (by simp) (by simp [hc])]
  simp only [parseNat_zfill_natStr]

/-- **C136, date in the name.** The stamp is the year without century, then two digits of the month and two of the day. -/
theorem C136_stamp (t : Moment) (ht : t.Valid) : ∃ mm dd : Str, exifStamp t.text = natStr (t.date.y % 100) ++ mm ++ dd ∧ mm.length = 2 ∧ dd.length = 2 ∧
    parseNat mm = some t.date.m ∧ parseNat dd = some t.date.d := by
  obtain ⟨⟨h1, h2, h3, h4, h5, h6⟩, _⟩ := ht
  have hm : t.date.m < 10 ^ (1 + 1) := by omega
  have hd : t.date.d < 10 ^ (1 + 1) := by
    have : daysInMonth t.date.y t.date.m ≤ 31 := by unfold daysInMonth; split_ifs <;> omega
    omega
  exact ⟨zfill 2 (natStr t.date.m), zfill 2 (natStr t.date.d), exifStamp_text t, zfill_natStr_length 1 _ hm, zfill_natStr_length 1 _ hd,
    parseNat_zfill_natStr _ _, parseNat_zfill_natStr _ _⟩

/-- **C136, date in the name.** Photos have the same stamp iff they were taken on the same day, up to the century. -/
theorem C136_stamp_day (t u : Moment) (ht : t.Valid) (hu : u.Valid) : exifStamp t.text = exifStamp u.text ↔
    t.date.y % 100 = u.date.y % 100 ∧ t.date.m = u.date.m ∧ t.date.d = u.date.d := by
  constructor
  · obtain ⟨m, d, e, h1, h2, h3, h4⟩ := C136_stamp t ht
    obtain ⟨m', d', e', h1', h2', h3', h4'⟩ := C136_stamp u hu
    rw [e, e']
    intro h
    obtain ⟨ha, hb⟩ := List.append_inj' h (by rw [h2, h2'])
    obtain ⟨ha, hc⟩ := List.append_inj' ha (by rw [h1, h1'])
    rw [hb, h4'] at h4
    rw [hc, h3'] at h3
    refine ⟨natStr_injective ha, (Option.some.inj h3).symm, (Option.some.inj h4).symm⟩
  · rintro ⟨ha, hb, hc⟩
    rw [exifStamp_text, exifStamp_text, ha, hb, hc]

theorem parseExif_text (t : Moment) (ht : t.Valid) : parseExif t.text = .ok (t.seconds : Int) := by
  obtain ⟨h0, h1, h2, h3, _⟩ := ht
  have hs : ∀ (k n : Nat), ' ' ∉ zfill k (natStr n) := fun k n => notMem_of_isDigit (zfill_natStr_isDigit k n) (by decide)
  have hc : ∀ (k n : Nat), ':' ∉ zfill k (natStr n) := fun k n => notMem_of_isDigit (zfill_natStr_isDigit k n) (by decide)
  have hv := (C08_value t.date h0 t.hh t.mm t.ss h1 h2 h3).1
  unfold getDatetimeFromStr at hv
  rw [if_pos (by simp [joinChar]), splitChar_joinChar (by simp) (by simp [hc])] at hv
  unfold parseExif Moment.text
  rw [splitChar_sep, splitChar_of_notMem (by simp [joinChar, hs]), splitChar_of_notMem (by simp [clockText, joinChar, hs])]
  simp only [List.cons_append, List.nil_append]
  rw [splitChar_joinChar (by simp) (by simp [hc])]
  simp only at hv ⊢
  rw [hv]
  simp [Moment.seconds]

theorem parseExifFrac_text (t : Moment) (ht : t.Valid) (f : Str) :
    parseExifFrac (t.text ++ '.' :: f) = match microVal f with
      | some u => .ok ((t.seconds : Int) * 1000000 + u)
      | none => .error .valueError := by
  unfold parseExifFrac
  rw [splitChar_sep, splitChar_of_notMem (moment_text_chars t)]
  by_cases hf : '.' ∈ f
  · have h1 : microVal f = none := by
      unfold microVal strpField
      rw [parseNat_none '.' hf (by decide)]
      simp
    rw [h1]
    obtain ⟨g, gs, e⟩ := List.exists_cons_of_ne_nil (splitChar_ne_nil '.' f)
    have hlen : gs ≠ [] := by
      rintro rfl
      have hj := joinChar_splitChar '.' f
      rw [e] at hj
      have := splitChar_parts (s := f) (f := g) (c := '.') (by rw [e]; simp)
      rw [← hj] at hf
      exact this (by simpa [joinChar] using hf)
    obtain ⟨h, hs, rfl⟩ := List.exists_cons_of_ne_nil hlen
    rw [e]
    rfl
  · rw [splitChar_of_notMem hf]
    simp only [List.cons_append, List.nil_append]
    rw [parseExif_text t ht]
    cases microVal f <;> rfl

/-- The fraction of a second as it is understood: none without a usable entry. -/
theorem captureDate_text (e : ExifInfo) (t : Moment) (ht : t.Valid) (he : e.datetime = some t.text) :
    captureDate e = .ok ((t.seconds : Int) * 1000000 + (((e.subsec.bind microVal).getD 0 : Nat) : Int)) := by
  unfold captureDate
  rw [he]
  simp only [exifEntry]
  cases hs : e.subsec with
  | none =>
    simp only [Except.bind, Option.bind_none, Option.getD_none]
    rw [parseExif_text t ht]
    simp
  | some f =>
    simp only [Except.bind, Option.bind_some]
    rw [parseExifFrac_text t ht]
    cases microVal f with
    | none =>
      simp only [Option.getD_none]
      rw [parseExif_text t ht]
      simp
    | some u => simp

theorem digitsVal_lt : ∀ (s : Str) (a v : Nat), digitsVal a s = some v → v < (a + 1) * 10 ^ s.length
  | [], a, v, h => by simp [digitsVal] at h; simp; omega
  | c :: s, a, v, h => by
    rw [digitsVal] at h
    cases hc : charDigit c with
    | none => simp [hc] at h
    | some d =>
      simp only [hc] at h
      have h1 := digitsVal_lt s (10 * a + d) v h
      have hd : d < 10 := by
        unfold charDigit at hc
        split at hc
        · injection hc with hc; omega
        · cases hc
      have h2 : (10 * a + d + 1) * 10 ^ s.length ≤ (a + 1) * 10 ^ (c :: s).length := by
        rw [List.length_cons, Nat.pow_succ]
        calc (10 * a + d + 1) * 10 ^ s.length ≤ (10 * a + 10) * 10 ^ s.length := Nat.mul_le_mul_right _ (by omega)
          _ = (a + 1) * (10 ^ s.length * 10) := by ring
      omega

theorem microVal_lt {f : Str} {u : Nat} (h : microVal f = some u) : u < 1000000 := by
  unfold microVal strpField parseNat at h
  by_cases hl : 1 ≤ f.length ∧ f.length ≤ 6
  · rw [if_pos hl] at h
    by_cases hf : f = []
    · simp [hf] at h
    · rw [if_neg hf] at h
      cases hv : digitsVal 0 f with
      | none => simp [hv] at h
      | some v =>
        simp only [hv, Option.some.injEq] at h
        have h1 := digitsVal_lt f 0 v hv
        have h2 : 10 ^ f.length * 10 ^ (6 - f.length) = 1000000 := by
          rw [← Nat.pow_add, show f.length + (6 - f.length) = 6 by omega]
        rw [← h, ← h2]
        exact Nat.mul_lt_mul_of_pos_right (by omega) (by positivity)
  · rw [if_neg hl] at h
    cases h

theorem microVal_fraction (t : Moment) (ht : t.Valid) (k : Nat) (h1 : 1 ≤ k) (h6 : k ≤ 6) :
    microVal (t.fraction k) = some (t.micro / 10 ^ (6 - k) * 10 ^ (6 - k)) := by
  obtain ⟨j, rfl⟩ : ∃ j, k = j + 1 := ⟨k - 1, by omega⟩
  have hlt : t.micro / 10 ^ (6 - (j + 1)) < 10 ^ (j + 1) := by
    rw [Nat.div_lt_iff_lt_mul (by positivity), ← Nat.pow_add, show j + 1 + (6 - (j + 1)) = 6 by omega]
    have := ht.2.2.2.2
    omega
  have hl := zfill_natStr_length j _ hlt
  unfold microVal Moment.fraction strpField
  rw [if_pos ⟨by omega, by omega⟩, parseNat_zfill_natStr]
  simp only [hl]

/-! ### C136 -/

/-- **C136.** Whatever the entry for the fraction of a second is, or if it is missing, the second in which a photo was taken
is read correctly. -/
theorem C136_second (e : ExifInfo) (t : Moment) (ht : t.Valid) (he : e.datetime = some t.text) :
    ∃ x : Nat, captureDate e = .ok (x : Int) ∧ x / 1000000 = t.seconds := by
  refine ⟨t.seconds * 1000000 + (e.subsec.bind microVal).getD 0, ?_, ?_⟩
  · rw [captureDate_text e t ht he]; simp
  · have : (e.subsec.bind microVal).getD 0 < 1000000 := by
      cases h : e.subsec.bind microVal with
      | none => simp
      | some u =>
        simp only [Option.getD_some]
        obtain ⟨f, _, h⟩ := Option.bind_eq_some_iff.1 h
        exact microVal_lt h
    omega

/-- **C136.** With a fraction of `k` digits the time is that of the camera, cut off after `k` digits. -/
theorem C136_fraction (e : ExifInfo) (t : Moment) (ht : t.Valid) (he : e.datetime = some t.text) (k : Nat) (h1 : 1 ≤ k) (h6 : k ≤ 6)
    (hf : e.subsec = some (t.fraction k)) :
    captureDate e = .ok ((t.micros / 10 ^ (6 - k) * 10 ^ (6 - k) : Nat) : Int) := by
  rw [captureDate_text e t ht he, hf]
  simp only [Option.bind_some]
  rw [microVal_fraction t ht k h1 h6, Option.getD_some]
  have hd : t.micros / 10 ^ (6 - k) = t.seconds * 10 ^ k + t.micro / 10 ^ (6 - k) := by
    unfold Moment.micros
    rw [show 1000000 = 10 ^ k * 10 ^ (6 - k) by rw [← Nat.pow_add, show k + (6 - k) = 6 by omega], ← Nat.mul_assoc,
      Nat.add_comm, Nat.add_mul_div_right _ _ (by positivity), Nat.add_comm]
  rw [hd, Nat.add_mul, Nat.mul_assoc, ← Nat.pow_add, show k + (6 - k) = 6 by omega]
  push_cast
  norm_num

example : captureDate ⟨some "2018:11:27 12:00:05".toList, some "07".toList⟩ = .ok (((737025 * 24 + 12) * 3600 + 5) * 1000000 + 70000) := by
  decide +kernel

theorem mem_dictKeys {l : List Str} {x : Str} : x ∈ dictKeys l ↔ x ∈ l := by
  induction l with
  | nil => simp [dictKeys]
  | cons k l ih =>
    rw [dictKeys, List.mem_cons, List.mem_cons, List.mem_filter, ih]
    by_cases h : x = k <;> simp [h]

theorem dictKeys_nodup : ∀ l : List Str, (dictKeys l).Nodup
  | [] => by simp [dictKeys]
  | k :: l => by
    rw [dictKeys, List.nodup_cons]
    exact ⟨by simp, (dictKeys_nodup l).filter _⟩

theorem shotsOf_ok {names : List Str} {exif : Str → ExifInfo} {raw : List Str} {f : Str → Shot} :
    ∀ {l : List Str}, (∀ i ∈ l, shotOf names exif raw i = .ok (f i)) → shotsOf names exif raw l = .ok (l.map f)
  | [], _ => rfl
  | i :: l, h => by
    rw [shotsOf, h i (by simp), shotsOf_ok fun j hj => h j (List.mem_cons_of_mem _ hj)]
    rfl

/-- An image the user wants to be taken into account: a file that is not hidden and ends in one of the types. -/
def Wanted (names : List Str) (imageInput image : Str) : Prop :=
  image ∈ names ∧ image.head? ≠ some '.' ∧ ∃ t ∈ typesOf imageInput, ∃ b, image = b ++ '.' :: t

theorem wanted_iff (names : List Str) (imageInput image : Str) :
    image ∈ dictKeys ((typesOf imageInput).flatMap (globType names)) ↔ Wanted names imageInput image := by
  rw [mem_dictKeys, List.mem_flatMap]
  unfold globType Wanted
  simp only [List.mem_filter, Bool.and_eq_true, decide_eq_true_eq]
  constructor
  · rintro ⟨t, ht, hn, ⟨b, hb⟩, hh⟩
    exact ⟨hn, hh, t, ht, b, hb.symm⟩
  · rintro ⟨hn, hh, t, ht, b, hb⟩
    exact ⟨t, ht, hn, ⟨b, hb.symm⟩, hh⟩

/-- The photos of a directory show when they were taken. -/
def Dated (names : List Str) (exif : Str → ExifInfo) (imageInput : Str) (taken : Str → Moment) : Prop :=
  ∀ i, Wanted names imageInput i → (taken i).Valid ∧ (exif i).datetime = some (taken i).text

/-- The row of an image. -/
def shotRow (names : List Str) (exif : Str → ExifInfo) (rawInput : Str) (taken : Str → Moment) (i : Str) : Shot :=
  ⟨i, rawOf names (rsplitBase i) (typesOf rawInput),
    ((taken i).seconds : Int) * 1000000 + ((((exif i).subsec.bind microVal).getD 0 : Nat) : Int), exifStamp (taken i).text⟩

theorem imageTable_rows {names : List Str} {exif : Str → ExifInfo} {imageInput : Str} {taken : Str → Moment} (rawInput : Str)
    (h : Dated names exif imageInput taken) :
    imageTable names exif imageInput rawInput =
      .ok ((dictKeys ((typesOf imageInput).flatMap (globType names))).map (shotRow names exif rawInput taken)) := by
  refine shotsOf_ok fun i hi => ?_
  obtain ⟨h1, h2⟩ := h i ((wanted_iff names imageInput i).1 hi)
  unfold shotOf
  rw [captureDate_text _ _ h1 h2, h2]
  rfl

/-- **C136.** If the photos show when they were taken, the table contains every photo of the wanted types exactly once. -/
theorem C136_complete {names : List Str} {exif : Str → ExifInfo} {imageInput : Str} {taken : Str → Moment} (rawInput : Str)
    (h : Dated names exif imageInput taken) :
    ∃ rows, imageTable names exif imageInput rawInput = .ok rows ∧ ∀ sorted, SortedTable rows sorted →
      (sorted.map (·.image)).Nodup ∧ ∀ i, i ∈ sorted.map (·.image) ↔ Wanted names imageInput i := by
  refine ⟨_, imageTable_rows rawInput h, fun sorted hs => ?_⟩
  have hp := hs.1.map (·.image)
  rw [List.map_map, show ((·.image) ∘ shotRow names exif rawInput taken) = id from rfl, List.map_id] at hp
  exact ⟨hp.nodup_iff.2 (dictKeys_nodup _), fun i => by rw [hp.mem_iff, wanted_iff]⟩

/-- **C136.** Photos of different seconds get numbers in the order in which they were taken, for all entries of the fraction
of a second; photos whose fraction is written with `k` digits do so at the resolution of `k` digits. -/
theorem C136_order {names : List Str} {exif : Str → ExifInfo} {imageInput rawInput : Str} {taken : Str → Moment}
    (h : Dated names exif imageInput taken) {rows sorted : List Shot} (hr : imageTable names exif imageInput rawInput = .ok rows)
    (hs : SortedTable rows sorted) {i j : Nat} {a b : Shot} (hij : i < j) (ha : sorted[i]? = some a) (hb : sorted[j]? = some b) :
    (taken a.image).seconds ≤ (taken b.image).seconds ∧
    ∀ k, 1 ≤ k → k ≤ 6 → (exif a.image).subsec = some ((taken a.image).fraction k) →
      (exif b.image).subsec = some ((taken b.image).fraction k) →
      (taken a.image).micros / 10 ^ (6 - k) ≤ (taken b.image).micros / 10 ^ (6 - k) := by
  rw [imageTable_rows rawInput h] at hr
  injection hr with hr
  obtain ⟨hi1, hi2⟩ := List.getElem?_eq_some_iff.1 ha
  obtain ⟨hj1, hj2⟩ := List.getElem?_eq_some_iff.1 hb
  have hle := List.pairwise_iff_getElem.1 hs.2 i j hi1 hj1 hij
  rw [hi2, hj2] at hle
  have hrow : ∀ s ∈ sorted, Wanted names imageInput s.image ∧
      captureDate (exif s.image) = .ok s.date := by
    intro s hs'
    have := hs.1.mem_iff.1 hs'
    rw [← hr] at this
    obtain ⟨x, hx, rfl⟩ := List.mem_map.1 this
    have hw := (wanted_iff names imageInput x).1 hx
    exact ⟨hw, captureDate_text _ _ (h x hw).1 (h x hw).2⟩
  obtain ⟨wa, da⟩ := hrow a (hi2 ▸ List.getElem_mem hi1)
  obtain ⟨wb, db⟩ := hrow b (hj2 ▸ List.getElem_mem hj1)
  constructor
  · obtain ⟨x, hx, ex⟩ := C136_second _ _ (h _ wa).1 (h _ wa).2
    obtain ⟨y, hy, ey⟩ := C136_second _ _ (h _ wb).1 (h _ wb).2
    rw [da] at hx
    rw [db] at hy
    injection hx with hx
    injection hy with hy
    have : x ≤ y := by omega
    rw [← ex, ← ey]
    exact Nat.div_le_div_right this
  · intro k h1 h6 fa fb
    have hx := C136_fraction _ _ (h _ wa).1 (h _ wa).2 k h1 h6 fa
    have hy := C136_fraction _ _ (h _ wb).1 (h _ wb).2 k h1 h6 fb
    rw [da] at hx
    rw [db] at hy
    injection hx with hx
    injection hy with hy
    rw [hx, hy] at hle
    exact Nat.le_of_mul_le_mul_right (Int.ofNat_le.1 hle) (by positivity)

theorem countP_before : ∀ (l : List Shot) (f : Shot → Nat), l.Pairwise (fun a b => f a < f b) → ∀ (i : Nat) (s : Shot),
    l[i]? = some s → l.countP (fun b => decide (f b < f s)) = i
  | [], _, _, _, _, h => by simp at h
  | a :: l, f, hp, i, s, h => by
    rw [List.pairwise_cons] at hp
    cases i with
    | zero =>
      simp only [List.getElem?_cons_zero, Option.some.injEq] at h
      subst h
      rw [List.countP_eq_zero]
      intro b hb
      rcases List.mem_cons.1 hb with rfl | hb
      · simp
      · have := hp.1 b hb
        simp; omega
    | succ i =>
      rw [List.getElem?_cons_succ] at h
      rw [List.countP_cons, countP_before l f hp.2 i s h, if_pos (by simpa using hp.1 s (List.mem_of_getElem? h))]

/-- **C136.** If all fractions are written with `k` digits and no two photos fall into the same step of this clock, the
number of a photo is one more than the number of photos taken before it, however equal dates are arranged. -/
theorem C136_numbers {names : List Str} {exif : Str → ExifInfo} {imageInput rawInput : Str} {taken : Str → Moment}
    (h : Dated names exif imageInput taken) {rows sorted : List Shot} (hr : imageTable names exif imageInput rawInput = .ok rows)
    (hs : SortedTable rows sorted) (k : Nat) (h1 : 1 ≤ k) (h6 : k ≤ 6)
    (hf : ∀ i, Wanted names imageInput i → (exif i).subsec = some ((taken i).fraction k))
    (hd : ∀ i j, Wanted names imageInput i → Wanted names imageInput j → i ≠ j →
      (taken i).micros / 10 ^ (6 - k) ≠ (taken j).micros / 10 ^ (6 - k))
    {n : Nat} {s : Shot} (hn : sorted[n]? = some s) (name : Str) :
    (s.image, newImage name s ((sorted.map (·.image)).countP (fun b => decide ((taken b).micros < (taken s.image).micros)) + 1)) ∈
      renamePlan name sorted 1 := by
  obtain ⟨rows', e, hrows⟩ := C136_complete rawInput h
  rw [hr] at e
  injection e with e
  subst e
  obtain ⟨hnd, hw⟩ := hrows sorted hs
  have hwant : ∀ t ∈ sorted, Wanted names imageInput t.image := fun t ht => (hw _).1 (List.mem_map_of_mem (f := (·.image)) ht)
  have hpw : sorted.Pairwise (fun a b => (taken a.image).micros < (taken b.image).micros) := by
    rw [List.pairwise_iff_getElem]
    intro i j hi hj hij
    have ho := (C136_order h hr hs hij (List.getElem?_eq_getElem hi) (List.getElem?_eq_getElem hj)).2 k h1 h6
      (hf _ (hwant _ (List.getElem_mem hi))) (hf _ (hwant _ (List.getElem_mem hj)))
    have hne : sorted[i].image ≠ sorted[j].image := by
      have := List.pairwise_iff_getElem.1 hnd i j (by simpa using hi) (by simpa using hj) hij
      simpa using this
    have := hd _ _ (hwant _ (List.getElem_mem hi)) (hwant _ (List.getElem_mem hj)) hne
    by_contra hc
    have := Nat.div_le_div_right (c := 10 ^ (6 - k)) (Nat.le_of_not_lt hc)
    omega
  have hc := countP_before sorted (fun b => (taken b.image).micros) hpw n s hn
  rw [List.countP_map]
  have he : ((fun b => decide ((taken b).micros < (taken s.image).micros)) ∘ fun (x : Shot) => x.image) =
      fun b => decide ((taken b.image).micros < (taken s.image).micros) := rfl
  rw [he, hc, Nat.add_comm]
  exact (C64_numbers name sorted 1 n s hn).2

theorem extOf_last (b : Str) {t : Str} (ht : '.' ∉ t) : extOf (b ++ '.' :: t) = t := by
  unfold extOf
  rw [splitChar_sep, splitChar_of_notMem ht, List.getLastD_eq_getLast?]
  simp

theorem rsplitBase_last (b : Str) {t : Str} (ht : '.' ∉ t) : rsplitBase (b ++ '.' :: t) = b := by
  unfold rsplitBase
  rw [splitChar_sep, splitChar_of_notMem ht, List.dropLast_concat, joinChar_splitChar]

theorem plan_sources (name : Str) : ∀ (l : List Shot) (n : Nat),
    (renamePlan name l n).map (·.1) = l.flatMap fun s => [s.raw, s.image]
  | [], _ => rfl
  | s :: l, n => by
    rw [renamePlan, List.map_cons, List.map_cons, plan_sources name l (n + 1)]
    rfl

/-- What the user relies on for a set of photos with raw files: the types are plain endings, none is both an image and a raw
type, no raw type is `jpg`, every photo has a raw file and no two photos differ only in their ending. -/
structure PairedPhotos (names : List Str) (imageInput rawInput : Str) : Prop where
  image_types : ∀ t ∈ typesOf imageInput, '.' ∉ t
  raw_types : ∀ t ∈ typesOf rawInput, '.' ∉ t ∧ t ≠ "jpg".toList ∧ t ∉ typesOf imageInput
  raws : ∀ i, Wanted names imageInput i → ∃ t ∈ typesOf rawInput, rsplitBase i ++ '.' :: t ∈ names
  bases : ∀ i j, Wanted names imageInput i → Wanted names imageInput j → rsplitBase i = rsplitBase j → i = j

/-- **C136.** From the directory to the renamed files: photos that show when they were taken and have raw files are all
renamed, keep their contents, and photo number `n + 1` of the table gets number `n + 1`, its raw file likewise; no other file
changes. The new names must not be in use. -/
theorem C136_renamed_partial {C : Type} (d : Dir C) {exif : Str → ExifInfo} {imageInput rawInput : Str} {taken : Str → Moment}
    (h : Dated d.names exif imageInput taken) (hp : PairedPhotos d.names imageInput rawInput) {rows sorted : List Shot}
    (hr : imageTable d.names exif imageInput rawInput = .ok rows) (hs : SortedTable rows sorted) (name : Str)
    (hnew : ∀ p ∈ renamePlan name sorted 1, p.2 ∉ d.names) (keep : Str) (hk : keep = "y".toList ∨ keep = "n".toList) :
    ∃ res, renameDialogue (renamePlan name sorted 1) ["y".toList, keep] d [] = res ∧ res.ending = .exited ∧
      (∀ n s, sorted[n]? = some s → content res.dir (newImage name s (n + 1)) = content d s.image ∧
        content res.dir (newRaw name s (n + 1)) = content d s.raw ∧ content res.dir s.image = none) ∧
      ∀ x, x ∉ (renamePlan name sorted 1).map (·.1) → x ∉ (renamePlan name sorted 1).map (·.2) →
        content res.dir x = content d x := by
  obtain ⟨rows', e, hrows⟩ := C136_complete rawInput h
  rw [hr] at e
  injection e with e
  subst e
  obtain ⟨hnd, hw⟩ := hrows sorted hs
  have hwant : ∀ t ∈ sorted, Wanted d.names imageInput t.image := fun t ht => (hw _).1 (List.mem_map_of_mem (f := (·.image)) ht)
  have hraw : ∀ s ∈ sorted, ∃ t ∈ typesOf rawInput, s.raw = rsplitBase s.image ++ '.' :: t ∧ s.raw ∈ d.names := by
    intro s hs'
    have hm := hs.1.mem_iff.1 hs'
    rw [imageTable_rows rawInput h] at hr
    injection hr with hr
    rw [← hr] at hm
    obtain ⟨i, hi, rfl⟩ := List.mem_map.1 hm
    obtain ⟨t, ht, htn⟩ := hp.raws i ((wanted_iff _ _ _).1 hi)
    rcases rawOf_spec d.names (rsplitBase i) (typesOf rawInput) with ⟨_, hno⟩ | ⟨u, hu, hu1, hu2⟩
    · exact absurd htn (hno t ht)
    · exact ⟨u, hu, hu1, by show rawOf _ _ _ ∈ _; rw [hu1]; exact hu2⟩
  have hext : ∀ s ∈ sorted, extOf s.image ∈ typesOf imageInput := by
    intro s hs'
    obtain ⟨_, _, t, ht, b, e⟩ := hwant s hs'
    rw [e, extOf_last b (hp.image_types t ht)]
    exact ht
  have hne : ∀ s ∈ sorted, ∀ s' ∈ sorted, s.raw ≠ s'.image := by
    intro s h1 s' h2 e
    obtain ⟨t, ht, e1, _⟩ := hraw s h1
    have := hext s' h2
    rw [← e, e1, extOf_last _ (hp.raw_types t ht).1] at this
    exact (hp.raw_types t ht).2.2 this
  have hsrcs : ((renamePlan name sorted 1).map (·.1)).Nodup := by
    rw [plan_sources, List.nodup_flatMap]
    constructor
    · intro s h1
      simp [hne s h1 s h1]
    · have hnd' := (List.pairwise_map.1 hnd)
      refine hnd'.imp_of_mem fun {a b} ha hb hab => ?_
      have hrr : a.raw ≠ b.raw := by
        intro e
        obtain ⟨t, ht, e1, _⟩ := hraw a ha
        obtain ⟨u, hu, e2, _⟩ := hraw b hb
        rw [e1, e2] at e
        exact hab (hp.bases _ _ (hwant a ha) (hwant b hb) (last_sep (hp.raw_types t ht).1 (hp.raw_types u hu).1 e).1)
      simp only [Function.onFun, List.disjoint_cons_left, List.mem_cons, List.not_mem_nil, or_false, not_or]
      exact ⟨⟨hrr, hne a ha b hb⟩, ⟨fun e => hne b hb a ha e.symm, hab⟩, by simp⟩
  have hsrc : ∀ p ∈ renamePlan name sorted 1, p.1 ∈ d.names := by
    intro p hp'
    have : p.1 ∈ (renamePlan name sorted 1).map (·.1) := List.mem_map_of_mem (f := (·.1)) hp'
    rw [plan_sources, List.mem_flatMap] at this
    obtain ⟨s, h1, h2⟩ := this
    simp only [List.mem_cons, List.not_mem_nil, or_false] at h2
    rcases h2 with h2 | h2
    · rw [h2]; exact (hraw s h1).elim fun t ht => ht.2.2
    · rw [h2]; exact (hwant s h1).1
  have hjpg : ∀ s ∈ sorted, extOf s.raw ≠ "jpg".toList := by
    intro s h1
    obtain ⟨t, ht, e1, _⟩ := hraw s h1
    rw [e1, extOf_last _ (hp.raw_types t ht).1]
    exact (hp.raw_types t ht).2.1
  obtain ⟨d', hd1, hd2, hd3⟩ := C64_lossless_partial (renamePlan name sorted 1) d hsrc hsrcs
    ((C64_new_names name sorted 1).2 hjpg) hnew
  have hfinal : ∃ res, renameDialogue (renamePlan name sorted 1) ["y".toList, keep] d [] = res ∧ res.ending = .exited ∧
      res.dir = d' := by
    rcases hk with rfl | rfl
    · refine ⟨_, rfl, ?_, ?_⟩ <;> (rw [renameDialogue, if_pos rfl, hd1]; rfl)
    · refine ⟨_, rfl, ?_, ?_⟩ <;> (rw [renameDialogue, if_pos rfl, hd1]; rfl)
  obtain ⟨res, e, hend, hdir⟩ := hfinal
  refine ⟨res, e, hend, fun n s hn => ?_, ?_⟩
  · have hnum := C64_numbers name sorted 1 n s hn
    rw [Nat.add_comm] at hnum
    rw [hdir]
    exact ⟨(hd2 _ hnum.2).1, (hd2 _ hnum.1).1, (hd2 _ hnum.2).2⟩
  · rw [hdir]
    exact hd3

/-- Refuted: a photo whose entry for the fraction of a second is missing is numbered before another one of the same second
that was taken earlier, in every arrangement. -/
theorem C136_same_second_false :
    let taken : Str → Moment := fun i => if i = "a.jpg".toList then ⟨⟨2018, 11, 27⟩, 12, 0, 5, 900000⟩
      else ⟨⟨2018, 11, 27⟩, 12, 0, 5, 500000⟩
    let exif : Str → ExifInfo := fun i => ⟨some (taken i).text, if i = "a.jpg".toList then none else some ((taken i).fraction 1)⟩
    (taken "b.jpg".toList).micros < (taken "a.jpg".toList).micros ∧
    ∃ rows, imageTable ["a.jpg".toList, "b.jpg".toList] exif "jpg".toList "CR2".toList = .ok rows ∧
      ∀ sorted, SortedTable rows sorted → sorted.map (·.image) = ["a.jpg".toList, "b.jpg".toList] := by
  intro taken exif
  refine ⟨by decide +kernel, [⟨"a.jpg".toList, "NaT".toList, 63679003205000000, "181127".toList⟩,
    ⟨"b.jpg".toList, "NaT".toList, 63679003205500000, "181127".toList⟩], by decide +kernel, ?_⟩
  rintro sorted ⟨hp, ho⟩
  match sorted, hp.length_eq with
  | [x, y], _ =>
    rw [List.pairwise_pair] at ho
    have hx := hp.subset (List.mem_cons_self (a := x))
    simp only [List.mem_cons, List.not_mem_nil, or_false] at hx
    rcases hx with rfl | rfl
    · have hy := hp.cons_inv
      rw [List.singleton_perm_singleton] at hy
      rw [hy]
      rfl
    · have hy := (hp.trans (.swap _ _ _)).cons_inv
      rw [List.singleton_perm_singleton] at hy
      rw [hy] at ho
      exact absurd ho (by decide)

/-- Refuted: two photos of the same second without fraction can be numbered either way. -/
theorem C136_ties_false (a b : Shot) (h : a.date = b.date) : SortedTable [a, b] [a, b] ∧ SortedTable [a, b] [b, a] := by
  refine ⟨⟨.refl _, by simp [h]⟩, ⟨.swap _ _ _, by simp [h]⟩⟩

/-- Refuted: a photo without date ends the program before anything is asked or renamed; the others are not renamed either. -/
theorem C136_no_date_false (names : List Str) (exif : Str → ExifInfo) (imageInput rawInput i : Str)
    (hi : Wanted names imageInput i) (hd : (exif i).datetime = none) :
    ∃ e, imageTable names exif imageInput rawInput = .error e := by
  have hi' := (wanted_iff names imageInput i).2 hi
  unfold imageTable
  generalize dictKeys ((typesOf imageInput).flatMap (globType names)) = l at hi'
  induction l with
  | nil => cases hi'
  | cons x l ih =>
    rw [shotsOf]
    cases hx : shotOf names exif (typesOf rawInput) x with
    | error e => exact ⟨e, rfl⟩
    | ok s =>
      rcases List.mem_cons.1 hi' with rfl | hm
      · unfold shotOf captureDate at hx
        rw [hd] at hx
        cases hx
      · obtain ⟨e, he⟩ := ih hm
        exact ⟨e, by simp only [he]⟩

/-- Refuted: two photos that differ only in their ending share their raw file; it follows the first one, the second one is
not renamed and the program ends with an exception. -/
theorem C136_shared_raw_false :
    let exif : Str → ExifInfo := fun i => ⟨some "2018:11:27 12:00:05".toList, if i = "a.jpg".toList then some "1".toList else some "2".toList⟩
    let d : Dir Nat := [("a.jpg".toList, 1), ("a.png".toList, 2), ("a.CR2".toList, 3)]
    let rows := [⟨"a.jpg".toList, "a.CR2".toList, 63679003205100000, "181127".toList⟩, ⟨"a.png".toList, "a.CR2".toList, 63679003205200000, "181127".toList⟩]
    imageTable d.names exif "jpg, png".toList "CR2".toList = .ok rows ∧ SortedTable rows rows ∧
    renameDialogue (renamePlan "x".toList rows 1) ["y".toList] d [] =
      ⟨[("181127_x_1.jpg".toList, 1), ("181127_x_1.CR2".toList, 3), ("a.png".toList, 2)], [], true, .failed .fileNotFound⟩ := by
  refine ⟨by decide +kernel, ⟨.refl _, by decide +kernel⟩, by decide +kernel⟩

/-- Refuted: a type that is given as image type and as raw type makes every photo its own raw file; the first one is renamed
and then missing. -/
theorem C136_same_type_false :
    let exif : Str → ExifInfo := fun _ => ⟨some "2018:11:27 12:00:05".toList, none⟩
    let d : Dir Nat := [("a.png".toList, 1), ("a.CR2".toList, 2)]
    let rows := [⟨"a.png".toList, "a.png".toList, 63679003205000000, "181127".toList⟩]
    imageTable d.names exif "png".toList "png,CR2".toList = .ok rows ∧ SortedTable rows rows ∧
    renameDialogue (renamePlan "x".toList rows 1) ["y".toList] d [] =
      ⟨[("181127_x_1.png".toList, 1), ("a.CR2".toList, 2)], [], true, .failed .fileNotFound⟩ := by
  refine ⟨by decide +kernel, ⟨.refl _, by decide +kernel⟩, by decide +kernel⟩

/-- Two photos of one second, listed in the wrong order, with raw files: numbered by their fractions, the user's inputs with
blanks and two types. -/
example :
    let exif : Str → ExifInfo := fun i => ⟨some "2018:11:27 12:00:05".toList, if i = "a.jpg".toList then some "50".toList else some "07".toList⟩
    let d : Dir Nat := [("a.jpg".toList, 1), ("a.CR2".toList, 2), ("b.jpg".toList, 3), ("b.CR2".toList, 4), ("notes.txt".toList, 5)]
    let rows := [⟨"a.jpg".toList, "a.CR2".toList, 63679003205500000, "181127".toList⟩, ⟨"b.jpg".toList, "b.CR2".toList, 63679003205070000, "181127".toList⟩]
    imageTable d.names exif "jpg, JPG".toList "cr2, CR2".toList = .ok rows ∧ SortedTable rows rows.reverse ∧
    (renameDialogue (renamePlan "x".toList rows.reverse 1) ["y".toList, "n".toList] d []).dir =
      [("181127_x_2.jpg".toList, 1), ("181127_x_2.CR2".toList, 2), ("181127_x_1.jpg".toList, 3), ("181127_x_1.CR2".toList, 4),
        ("notes.txt".toList, 5)] := by
  refine ⟨by decide +kernel, ⟨List.reverse_perm _, by decide +kernel⟩, by decide +kernel⟩

end Ledsa
