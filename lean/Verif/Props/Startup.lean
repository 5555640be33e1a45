import Verif.Model.Startup
import Verif.Props.ImageInfos
import Verif.Props.Prompts
import Verif.Props.Time

/-!
# The start of a data extraction (C122, C123)
-/

namespace Ledsa

theorem zfill_zero (s : Str) : zfill 0 s = s := by
  unfold zfill
  split <;> simp

/-! ### Times -/

/-- The text is the time of day of a point in time. -/
def ShowsClock (text : Str) (t : Int) : Prop :=
  ∃ hh mm ss : Nat, hh < 24 ∧ mm < 60 ∧ ss < 60 ∧ text = clockText hh mm ss ∧ (((hh * 60 + mm) * 60 + ss : Nat) : Int) = t % 86400

theorem strfClock_shows (t : Int) : ShowsClock (strfClock t) t := by
  have h1 : 0 ≤ t % 86400 := Int.emod_nonneg _ (by norm_num)
  have h2 : t % 86400 < 86400 := Int.emod_lt_of_pos _ (by norm_num)
  refine ⟨(t % 86400).toNat / 3600, (t % 86400).toNat / 60 % 60, (t % 86400).toNat % 60, by omega, by omega, by omega, rfl, ?_⟩
  have : (((t % 86400).toNat / 3600 * 60 + (t % 86400).toNat / 60 % 60) * 60 + (t % 86400).toNat % 60) = (t % 86400).toNat := by omega
  rw [this]
  exact Int.toNat_of_nonneg h1

theorem clock_fields (hh mm ss : Nat) (h1 : hh < 24) (h2 : mm < 60) (h3 : ss < 60) :
    (splitChar ':' (clockText hh mm ss)).map (strpField 1 2) = [some hh, some mm, some ss] := by
  have hn : ∀ (c : Char) (k n : Nat), isDigit c = false → c ∉ zfill k (natStr n) :=
    fun c k n hc => notMem_of_isDigit (zfill_natStr_isDigit k n) hc
  unfold clockText
  rw [splitChar_joinChar (by simp) (by simp [hn ':' 2 _ (by decide)])]
  simp only [List.map_cons, List.map_nil]
  rw [strpField_zfill 1 1 hh (by omega) (by omega), strpField_zfill 1 1 mm (by omega) (by omega),
    strpField_zfill 1 1 ss (by omega) (by omega)]

theorem mkDateTime_clock (y m d : Str) (D : Int) (h : mkDateTime y m d "00:00:00".toList = .ok D) (hh mm ss : Nat) (h1 : hh < 24)
    (h2 : mm < 60) (h3 : ss < 60) : mkDateTime y m d (clockText hh mm ss) = .ok (D + ((hh * 60 + mm) * 60 + ss : Nat)) := by
  unfold mkDateTime at h ⊢
  have e0 : (splitChar ':' "00:00:00".toList).map (strpField 1 2) = [some 0, some 0, some 0] := by decide
  rw [clock_fields hh mm ss h1 h2 h3]
  rw [e0] at h
  cases hy : strpField 4 4 y with
  | none => rw [hy] at h; simp at h
  | some y' => cases hm : strpField 1 2 m with
    | none => rw [hy, hm] at h; simp at h
    | some m' => cases hd : strpField 1 2 d with
      | none => rw [hy, hm, hd] at h; simp at h
      | some d' =>
        rw [hy, hm, hd] at h
        simp only at h ⊢
        split_ifs at h with hv
        rw [if_pos ⟨hv.1, h1, h2, h3⟩]
        simp only [Except.ok.injEq] at h ⊢
        rw [← h]
        push_cast
        ring

theorem getDatetime_clock (date : Str) (D : Int) (h : getDatetimeFromStr date "00:00:00".toList = .ok D) (hh mm ss : Nat) (h1 : hh < 24)
    (h2 : mm < 60) (h3 : ss < 60) : getDatetimeFromStr date (clockText hh mm ss) = .ok (D + ((hh * 60 + mm) * 60 + ss : Nat)) := by
  unfold getDatetimeFromStr at h ⊢
  split_ifs at h ⊢ with hc
  · split at h
    · rename_i y m d e
      exact mkDateTime_clock y m d D h hh mm ss h1 h2 h3
    · simp at h
  · split at h
    · rename_i d m y e
      exact mkDateTime_clock y m d D h hh mm ss h1 h2 h3
    · simp at h

/-! ### The list -/

/-- The row of image `z` at position `i`: number, name, real time of day, and seconds since the start. -/
def RowFor (t : NameTemplate) (cap : Int → Int) (start off : Int) (i : Nat) (z : Int) (r : InfoRow) : Prop :=
  r.idx = i ∧ r.name = t.format z ∧ ShowsClock r.time (cap z - off) ∧ r.expTime = intStr (cap z - start) ++ ".0".toList

/-- One row for each image, in order, numbered from `k` on. -/
def ListedFrom (t : NameTemplate) (cap : Int → Int) (start off : Int) : Nat → List Int → List InfoRow → Prop
  | _, [], rows => rows = []
  | k, z :: zs, rows => ∃ r rs, rows = r :: rs ∧ RowFor t cap start off k z r ∧ ListedFrom t cap start off (k + 1) zs rs

/-- The images exist under their names in the directory and have capture times. -/
def Photos (exif : Str → Except PyErr Str) (dir : Str) (t : NameTemplate) (cap : Int → Int) (zs : List Int) : Prop :=
  ∀ z ∈ zs, ∃ d time, ' ' ∉ d ∧ ' ' ∉ time ∧ exif (joinPath dir (t.format z)) = .ok (d ++ ' ' :: time) ∧
    getDatetimeFromStr d time = .ok (cap z)

theorem captureTime_entry (d time : Str) (h1 : ' ' ∉ d) (h2 : ' ' ∉ time) : captureTime (d ++ ' ' :: time) = getDatetimeFromStr d time := by
  unfold captureTime
  have : splitChar ' ' (d ++ ' ' :: time) = [d, time] := by
    rw [splitChar_append h1, splitChar_of_notMem h2]
  rw [this]

theorem imageLines_ok (exif : Str → Except PyErr Str) (c : StartCfg) (cap : Int → Int) (start off : Int)
    (hs : getDatetimeFromStr c.date c.startTime = .ok start) (ho : c.offset = intStr off) (zs : List Int) :
    ∀ k, Photos exif c.dir c.name cap zs → ∃ rows, imageLines exif c k (zs.map fun z => zfill 4 (intStr z)) = .ok rows ∧
      ListedFrom c.name cap start off k zs rows := by
  induction zs with
  | nil => intro k _; exact ⟨[], rfl, rfl⟩
  | cons z zs ih =>
    intro k hp
    obtain ⟨rows, hr, hl⟩ := ih (k + 1) (fun z hz => hp z (List.mem_cons_of_mem _ hz))
    obtain ⟨d, time, h1, h2, h3, h4⟩ := hp z (List.mem_cons_self ..)
    have hstart : getStart c = .ok start := by unfold getStart; rw [hs]
    have hreal : realTimeMillis (cap z) c.offset = .ok (1000 * (cap z - off)) := by
      rw [ho, C06_real_time]
    have hline : imageLine exif c k (zfill 4 (intStr z)) =
        .ok ⟨k, c.name.format z, strfClock (1000 * (cap z - off) / 1000), secondsText (cap z - start)⟩ := by
      unfold imageLine
      rw [pyInt_zfill_intStr]
      simp only [bind, Except.bind]
      rw [h3]
      simp only [captureTime_entry d time h1 h2, h4, hstart, hreal]
    refine ⟨⟨k, c.name.format z, strfClock (1000 * (cap z - off) / 1000), secondsText (cap z - start)⟩ :: rows, ?_, _, rows, rfl, ?_, hl⟩
    · rw [List.map_cons, imageLines, hline, hr]
      rfl
    · refine ⟨rfl, rfl, ?_, rfl⟩
      simp only
      rw [Int.mul_ediv_cancel_left _ (by norm_num)]
      exact strfClock_shows _

/-- The images of a list, and the increment. -/
def Selected (b : BuildType) (c : StartCfg) (first last : Int) (k : Nat) : Prop :=
  pyInt c.firstExp = .ok first ∧
  match b with
  | .experiment => pyInt c.lastExp = .ok last ∧ k = 1
  | .analysis => pyInt c.lastAna = .ok last ∧ 0 < k ∧ pyInt c.skip = .ok ((k : Int) - 1)

theorem readRange_selected (b : BuildType) (c : StartCfg) (first last : Int) (k : Nat) (h : Selected b c first last k) :
    readRange b c = .ok (first, last, (k : Int)) ∧ 0 < k := by
  obtain ⟨h1, h2⟩ := h
  unfold readRange
  cases b with
  | experiment =>
    obtain ⟨h2, rfl⟩ := h2
    simp only [h1, h2, bind, Except.bind]
    exact ⟨rfl, one_pos⟩
  | analysis =>
    obtain ⟨h2, h3, h4⟩ := h2
    simp only [h1, h2, h4, bind, Except.bind, Except.map]
    refine ⟨?_, h3⟩
    rw [Int.sub_add_cancel]

/-- **C122.** If date and start time are given, the clock offset is a number of seconds and the images exist, the list is written: one
row for each image of the range with its name, the time of day without the offset, and the seconds since the start. -/
theorem C122_given_start (exif : Str → Except PyErr Str) (b : BuildType) (a1 a2 : Str) (c : StartCfg) (first last : Int) (k : Nat)
    (cap : Int → Int) (start off : Int) (hsel : Selected b (askRange a1 a2 c) first last k) (hle : first ≤ last)
    (hst : c.startTime ≠ "None".toList) (hs : getDatetimeFromStr c.date c.startTime = .ok start) (ho : c.offset = intStr off)
    (hp : Photos exif c.dir c.name cap (everyKth first last k)) :
    ∃ rows, imageInfos exif b a1 a2 c = .ok (askRange a1 a2 c, rows) ∧ ListedFrom c.name cap start off 1 (everyKth first last k) rows := by
  obtain ⟨hr, hk⟩ := readRange_selected _ _ _ _ _ hsel
  obtain ⟨rows, h1, h2⟩ := imageLines_ok exif (askRange a1 a2 c) cap start off hs ho (everyKth first last k) 1 hp
  refine ⟨rows, ?_, h2⟩
  unfold imageInfos
  rw [if_neg (show ¬ c.startTime = noneText from hst)]
  simp only [bind, Except.bind, hr, C01_ascending_list first last k hk hle, h1]

/-- **C122.** Only what is missing is asked: ids of the analysis that are in the configuration stay, the others are the answers, and
nothing but them and a missing start time changes. -/
theorem C122_asked (exif : Str → Except PyErr Str) (b : BuildType) (a1 a2 : Str) (c c' : StartCfg) (rows : List InfoRow)
    (h : imageInfos exif b a1 a2 c = .ok (c', rows)) :
    (c.firstAna ≠ "None".toList → c'.firstAna = c.firstAna) ∧ (c.firstAna = "None".toList → c'.firstAna = a1) ∧
    (c.lastAna ≠ "None".toList → c'.lastAna = c.lastAna) ∧ (c.lastAna = "None".toList → c'.lastAna = a2) ∧
    (c.startTime ≠ "None".toList → c'.startTime = c.startTime) ∧
    c' = { c with firstAna := c'.firstAna, lastAna := c'.lastAna, startTime := c'.startTime } := by
  have key : ∀ c1 : StartCfg, c1 = { c with startTime := c1.startTime } → c' = askRange a1 a2 c1 →
      (c.firstAna ≠ "None".toList → c'.firstAna = c.firstAna) ∧ (c.firstAna = "None".toList → c'.firstAna = a1) ∧
      (c.lastAna ≠ "None".toList → c'.lastAna = c.lastAna) ∧ (c.lastAna = "None".toList → c'.lastAna = a2) ∧
      c'.startTime = c1.startTime ∧
      c' = { c with firstAna := c'.firstAna, lastAna := c'.lastAna, startTime := c'.startTime } := by
    intro c1 e1 e2
    have f1 : c1.firstAna = c.firstAna := by rw [e1]
    have f2 : c1.lastAna = c.lastAna := by rw [e1]
    refine ⟨fun hf => ?_, fun hf => ?_, fun hf => ?_, fun hf => ?_, ?_, ?_⟩
    · rw [e2, ← f1]; exact if_neg (by rw [f1]; exact hf)
    · rw [e2]; exact if_pos (by rw [f1]; exact hf)
    · rw [e2, ← f2]; exact if_neg (by rw [f2]; exact hf)
    · rw [e2]; exact if_pos (by rw [f2]; exact hf)
    · rw [e2]; rfl
    · rw [e2]
      unfold askRange
      rw [e1]
  have tail : ∀ c1 : StartCfg, (do
      let c := askRange a1 a2 c1
      let (f, l, inc) ← readRange b c
      let ids ← findImgNumberList f l inc
      let rows ← imageLines exif c 1 ids
      .ok (c, rows) : Except PyErr (StartCfg × List InfoRow)) = .ok (c', rows) → c' = askRange a1 a2 c1 := by
    intro c1 h1
    simp only [bind, Except.bind] at h1
    cases e1 : readRange b (askRange a1 a2 c1) with
    | error e => rw [e1] at h1; cases h1
    | ok r =>
      rw [e1] at h1
      simp only at h1
      cases e2 : findImgNumberList r.1 r.2.1 r.2.2 with
      | error e => rw [e2] at h1; cases h1
      | ok ids =>
        rw [e2] at h1
        simp only at h1
        cases e3 : imageLines exif (askRange a1 a2 c1) 1 ids with
        | error e => rw [e3] at h1; cases h1
        | ok rs =>
          rw [e3] at h1
          simp only [Except.ok.injEq, Prod.mk.injEq] at h1
          exact h1.1.symm
  unfold imageInfos at h
  by_cases hst : c.startTime = "None".toList
  · rw [if_pos (show c.startTime = noneText from hst)] at h
    cases e0 : getStartTime exif c with
    | error e => rw [e0] at h; cases h
    | ok st =>
      rw [e0] at h
      obtain ⟨k1, k2, k3, k4, _, k6⟩ := key { c with startTime := st } rfl (tail _ h)
      exact ⟨k1, k2, k3, k4, fun hn => absurd hst hn, k6⟩
  · rw [if_neg (show ¬ c.startTime = noneText from hst)] at h
    obtain ⟨k1, k2, k3, k4, k5, k6⟩ := key c rfl (tail _ h)
    exact ⟨k1, k2, k3, k4, fun _ => k5, k6⟩

/-- **C122.** A capture time that is not a date and a clock time with one space between them is never read. -/
theorem C122_entry (entry : Str) (t : Int) (h : captureTime entry = .ok t) :
    ∃ d time, entry = d ++ ' ' :: time ∧ ' ' ∉ d ∧ ' ' ∉ time ∧ getDatetimeFromStr d time = .ok t := by
  by_cases hm : ' ' ∈ entry
  · obtain ⟨d, time, e, hd⟩ := List.eq_append_cons_of_mem hm
    by_cases ht : ' ' ∈ time
    · exfalso
      unfold captureTime at h
      obtain ⟨d2, t2, e2, hd2⟩ := List.eq_append_cons_of_mem ht
      rw [e, splitChar_append hd, e2, splitChar_append hd2] at h
      match hs : splitChar ' ' t2 with
      | [] => exact splitChar_ne_nil ' ' t2 hs
      | x :: l => rw [hs] at h; cases h
    · refine ⟨d, time, e, hd, ht, ?_⟩
      rw [e, captureTime_entry d time hd ht] at h
      exact h
  · exfalso
    unfold captureTime at h
    rw [splitChar_of_notMem hm] at h
    cases h

/-- **C122 (partial).** Without start time it is read from the first image, and everything is as above with the start of that day,
if the name of the directory ends with a slash, the template of the names is `{}` and the id of the first image is written without
leading zeros. -/
theorem C122_derived_partial (exif : Str → Except PyErr Str) (b : BuildType) (a1 a2 : Str) (c : StartCfg) (first last : Int) (k : Nat)
    (cap : Int → Int) (day off : Int) (hsel : Selected b (askRange a1 a2 c) first last k) (hle : first ≤ last)
    (hst : c.startTime = "None".toList) (hd : getDatetimeFromStr c.date "00:00:00".toList = .ok day) (ho : c.offset = intStr off)
    (hp : Photos exif c.dir c.name cap (everyKth first last k))
    (hdir : c.dir ++ c.name.format first = joinPath c.dir (c.name.format first)) (hw : c.name.width = 0) (hid : c.firstExp = intStr first) :
    ∃ c' rows, imageInfos exif b a1 a2 c = .ok (c', rows) ∧ ShowsClock c'.startTime (cap first - off) ∧
      ListedFrom c.name cap (day + (cap first - off) % 86400) off 1 (everyKth first last k) rows := by
  obtain ⟨hr, hk⟩ := readRange_selected _ _ _ _ _ hsel
  have hmem : first ∈ everyKth first last k := by
    unfold everyKth
    simp only [List.mem_map, List.mem_filter, List.mem_range]
    exact ⟨0, ⟨by omega, by simp⟩, by simp⟩
  obtain ⟨d, time, h1, h2, h3, h4⟩ := hp first hmem
  have hpath : startPath c = .ok (joinPath c.dir (c.name.format first)) := by
    unfold startPath NameTemplate.formatStr
    rw [if_pos hw]
    simp only [bind, Except.bind]
    rw [← hdir, hid]
    unfold NameTemplate.format
    rw [hw]
    simp only [zfill_zero]
  have hstart : getStartTime exif c = .ok (strfClock (cap first - off)) := by
    unfold getStartTime
    rw [hpath]
    simp only [bind, Except.bind]
    rw [h3]
    simp only [captureTime_entry d time h1 h2, h4, ho, pyInt_intStr]
  obtain ⟨hh, mm, ss, g1, g2, g3, g4, g5⟩ := strfClock_shows (cap first - off)
  have hs : getDatetimeFromStr c.date (strfClock (cap first - off)) = .ok (day + (cap first - off) % 86400) := by
    rw [g4, getDatetime_clock c.date day hd hh mm ss g1 g2 g3, g5]
  set c1 : StartCfg := { c with startTime := strfClock (cap first - off) } with hc1
  have hsel' : Selected b (askRange a1 a2 c1) first last k := hsel
  obtain ⟨rows, i1, i2⟩ := imageLines_ok exif (askRange a1 a2 c1) cap (day + (cap first - off) % 86400) off hs ho (everyKth first last k) 1 hp
  refine ⟨askRange a1 a2 c1, rows, ?_, strfClock_shows _, i2⟩
  unfold imageInfos
  rw [if_pos (show c.startTime = noneText from hst)]
  simp only [bind, Except.bind, hstart]
  rw [show ({ c with startTime := strfClock (cap first - off) } : StartCfg) = c1 from rfl]
  simp only [(readRange_selected _ _ _ _ _ hsel').1, C01_ascending_list first last k hk hle, i1]

/-- A directory to which a name can be attached directly. -/
def SlashDir (dir : Str) : Prop := dir = [] ∨ dir.getLast? = some '/'

theorem pyInt_slash (s : Str) (z : Int) : pyInt ('/' :: s) ≠ .ok z := by
  intro h
  obtain ⟨t, ht⟩ : ∃ t, strip ('/' :: s) = '/' :: t := by
    unfold strip
    rw [List.dropWhile_cons_of_neg (by decide), List.reverse_cons]
    rw [List.dropWhile_append]
    split_ifs with hh
    · exact ⟨[], by decide⟩
    · exact ⟨_, by rw [List.reverse_append]; rfl⟩
  unfold pyInt at h
  rw [ht] at h
  have hn : parseNat ('/' :: t) = none := parseNat_none '/' (List.mem_cons_self ..) (by decide)
  change (match parseNat ('/' :: t) with | some n => Except.ok (n : Int) | none => .error PyErr.valueError) = .ok z at h
  rw [hn] at h
  exact absurd h (by simp)

theorem pyInt_nil (z : Int) : pyInt [] ≠ .ok z := by
  have : pyInt [] = .error .valueError := by decide
  rw [this]
  simp

theorem format_head (t : NameTemplate) (z : Int) (h : t.pre.head? ≠ some '/') : (t.format z).head? ≠ some '/' := by
  unfold NameTemplate.format
  intro hh
  cases hp : t.pre with
  | cons a as =>
    rw [hp] at h hh
    simp at h hh
    exact h hh
  | nil =>
    rw [hp] at hh
    simp only [List.nil_append] at hh
    have hz := pyInt_zfill_intStr t.width z
    cases hq : zfill t.width (intStr z) with
    | nil => rw [hq] at hz; exact pyInt_nil _ hz
    | cons a as =>
      rw [hq] at hh hz
      simp only [List.cons_append, List.head?_cons, Option.some.injEq] at hh
      rw [hh] at hz
      exact pyInt_slash _ _ hz

/-- **C122 (exact condition).** The start time is read from the first image of the list exactly if the template is `{}`, the
directory is empty or ends with a slash, and the id is written as the number. -/
theorem C122_first_image_iff (c : StartCfg) (first : Int) (hf : pyInt c.firstExp = .ok first) (hpre : c.name.pre.head? ≠ some '/') :
    startPath c = .ok (joinPath c.dir (c.name.format first)) ↔ c.name.width = 0 ∧ SlashDir c.dir ∧ c.firstExp = intStr first := by
  have hhead := format_head c.name first hpre
  unfold startPath NameTemplate.formatStr joinPath
  rw [if_neg hhead]
  by_cases hw : c.name.width = 0
  · rw [if_pos hw]
    simp only [bind, Except.bind, Except.ok.injEq, hw, true_and]
    by_cases hd : SlashDir c.dir
    · rw [if_pos (show c.dir = [] ∨ c.dir.getLast? = some '/' from hd)]
      simp only [hd, true_and, List.append_cancel_left_eq]
      unfold NameTemplate.format
      rw [hw, zfill_zero]
      simp
    · rw [if_neg (show ¬ (c.dir = [] ∨ c.dir.getLast? = some '/') from hd)]
      simp only [hd, false_and, iff_false, List.append_cancel_left_eq]
      intro h
      cases hp : c.name.pre with
      | cons a as =>
        rw [hp] at h hpre
        simp only [List.cons_append, List.cons.injEq] at h
        exact hpre (by rw [h.1]; rfl)
      | nil =>
        rw [hp] at h
        simp only [List.nil_append] at h
        cases hq : c.firstExp with
        | nil => rw [hq] at hf; exact pyInt_nil _ hf
        | cons a as =>
          rw [hq] at h hf
          simp only [List.cons_append, List.cons.injEq] at h
          rw [h.1] at hf
          exact pyInt_slash _ _ hf
  · rw [if_neg hw]
    simp [bind, Except.bind, hw]

/-- Refuted (C122): with a template like `IMG_{:04d}.JPG` the start time cannot be found, whatever images there are. -/
theorem C122_template_false (exif : Str → Except PyErr Str) (b : BuildType) (a1 a2 : Str) (c : StartCfg) (hw : c.name.width ≠ 0)
    (hst : c.startTime = "None".toList) : imageInfos exif b a1 a2 c = .error .valueError := by
  unfold imageInfos
  rw [if_pos (show c.startTime = noneText from hst)]
  unfold getStartTime startPath NameTemplate.formatStr
  rw [if_neg hw]
  rfl

/-- Refuted (C122): with a fraction of a second as clock offset the start time cannot be found, though the offset is accepted if the
start time is given. -/
theorem C122_fraction_false (exif : Str → Except PyErr Str) (b : BuildType) (a1 a2 : Str) (c : StartCfg) (neg : Bool) (a : Nat) (d : Str)
    (hd : ∀ x ∈ d, isDigit x = true) (ho : c.offset = decimalText neg a d) (hst : c.startTime = "None".toList) :
    ∀ r, imageInfos exif b a1 a2 c ≠ .ok r := by
  intro r h
  have hg : ∀ x, getStartTime exif c ≠ .ok x := by
    intro x hx
    unfold getStartTime at hx
    simp only [bind, Except.bind] at hx
    rw [ho, C07_getint_fails neg a d hd] at hx
    split at hx
    · simp at hx
    · split at hx
      · simp at hx
      · split at hx
        · simp at hx
        · simp at hx
  unfold imageInfos at h
  rw [if_pos (show c.startTime = noneText from hst)] at h
  cases hs : getStartTime exif c with
  | ok x => exact hg x hs
  | error e => rw [hs] at h; simp [bind, Except.bind] at h

/-- Refuted (C122): the dialogue never asks for the date. With the clock offset given and the date unset it asks nothing and ends
without complaint, and no list of images can be written. -/
theorem C122_date_false (env : PEnv) (ans : Key → Str) (w : PWorld) (exif : Str → Except PyErr Str) (b : BuildType) (a1 a2 : Str)
    (c : StartCfg) (first last : Int) (k : Nat)
    (h : ∀ k ∈ plainKeys ++ [.exifDiff], ∃ v, w.cfg k = some v ∧ v ≠ "None".toList)
    (hdate : c.date = "None".toList)
    (hsel : ∀ s, Selected b (askRange a1 a2 { c with startTime := s }) first last k) (hle : first ≤ last) :
    requestConfig env ans w = (w, none) ∧ ∀ r, imageInfos exif b a1 a2 c ≠ .ok r := by
  refine ⟨requestConfig_set env ans w h, ?_⟩
  intro r hr
  have key : ∀ c' : StartCfg, c'.date = "None".toList → ∀ (n : Nat) (id : Str) (ids : List Str) rows,
      imageLines exif c' n (id :: ids) ≠ .ok rows := by
    intro c' hc' n id ids rows hrows
    have hs : getStart c' = .error .systemExit := by
      unfold getStart getDatetimeFromStr
      rw [hc', if_neg (by decide)]
      rfl
    rw [imageLines] at hrows
    have hl : ∀ x, imageLine exif c' n id ≠ .ok x := by
      intro x hx
      unfold imageLine at hx
      simp only [bind, Except.bind, hs] at hx
      split at hx
      · simp at hx
      · split at hx
        · simp at hx
        · split at hx <;> simp at hx
    cases hi : imageLine exif c' n id with
    | ok x => exact hl x hi
    | error e => rw [hi] at hrows; simp [bind, Except.bind] at hrows
  have fin : ∀ s r, (do
      let c' := askRange a1 a2 { c with startTime := s }
      let (f, l, inc) ← readRange b c'
      let ids ← findImgNumberList f l inc
      let rows ← imageLines exif c' 1 ids
      .ok (c', rows) : Except PyErr (StartCfg × List InfoRow)) ≠ .ok r := by
    intro s r hr
    obtain ⟨h1, h2⟩ := readRange_selected _ _ _ _ _ (hsel s)
    simp only [bind, Except.bind, h1, C01_ascending_list first last k h2 hle] at hr
    have hne : everyKth first last k ≠ [] := by
      have : first ∈ everyKth first last k := by
        unfold everyKth
        simp only [List.mem_map, List.mem_filter, List.mem_range]
        exact ⟨0, ⟨by omega, by simp⟩, by simp⟩
      exact List.ne_nil_of_mem this
    obtain ⟨z, zs, hz⟩ := List.exists_cons_of_ne_nil hne
    rw [hz, List.map_cons] at hr
    cases hi : imageLines exif (askRange a1 a2 { c with startTime := s }) 1 (zfill 4 (intStr z) :: zs.map fun z => zfill 4 (intStr z)) with
    | ok x => exact key _ (by exact hdate) _ _ _ _ hi
    | error e => rw [hi] at hr; simp at hr
  unfold imageInfos at hr
  split_ifs at hr with hst
  · cases hg : getStartTime exif c with
    | error e => rw [hg] at hr; simp [bind, Except.bind] at hr
    | ok s => rw [hg] at hr; exact fin s r hr
  · exact fin c.startTime r hr

/-! ### The object -/

/-- Refuted (C123): with the default of `channels` no object can be created, and with `load_config_file=False` the configuration has
already been replaced then. -/
theorem C123_default_false (env : PEnv) (ans : Key → Str) (load : Bool) (w : StartWorld) :
    (extractorInit env ans defaultChannels load w).2 = .error .typeError ∧
    (extractorInit env ans defaultChannels load w).1 = { w with file := if load then w.file else newConfig defaultArgs } := by
  unfold extractorInit defaultChannels channelList
  simp

theorem new_memory : cfgOf (newConfig defaultArgs) .imgDir = none := by decide +kernel

/-- Refuted (C123): with `load_config_file=False` the configuration on disk is replaced by a new one, nothing is asked and no object is
created. -/
theorem C123_new_config_false (env : PEnv) (ans : Key → Str) (l : List Nat) (w : StartWorld) :
    (extractorInit env ans (.many l) false w).2 = .error .keyError ∧
    (extractorInit env ans (.many l) false w).1 = ⟨newConfig defaultArgs, neededDirectories l w.dirs, []⟩ := by
  have h : requestConfig env ans ⟨cfgOf (newConfig defaultArgs), cfgOf (newConfig defaultArgs), []⟩ =
      (⟨cfgOf (newConfig defaultArgs), cfgOf (newConfig defaultArgs), []⟩, some .keyError) := by
    have e : stepsDirect ans [.imgDir, .imgName] ⟨cfgOf (newConfig defaultArgs), cfgOf (newConfig defaultArgs), []⟩ =
        (⟨cfgOf (newConfig defaultArgs), cfgOf (newConfig defaultArgs), []⟩, some .keyError) := by
      rw [stepsDirect]
      unfold stepDirect
      simp only [new_memory]
      rfl
    unfold requestConfig
    rw [e, andThen_error _ rfl]
  unfold extractorInit channelList
  simp only [Bool.false_eq_true, if_false, h]
  exact ⟨trivial, trivial⟩

/-- Directories are only added. -/
theorem addDirs_mem (new : List Str) : ∀ (dirs : List Str) (d : Str),
    d ∈ new.foldl (fun ds d => if d ∈ ds then ds else ds ++ [d]) dirs ↔ d ∈ dirs ∨ d ∈ new := by
  induction new with
  | nil => intro dirs d; simp
  | cons x xs ih =>
    intro dirs d
    rw [List.foldl_cons, ih]
    split_ifs with h
    · simp only [List.mem_cons]
      constructor
      · tauto
      · rintro (h' | rfl | h')
        · exact Or.inl h'
        · exact Or.inl h
        · exact Or.inr h'
    · simp only [List.mem_append, List.mem_cons, List.not_mem_nil, or_false]
      tauto

theorem addDirs_same (new dirs : List Str) (h : ∀ d ∈ new, d ∈ dirs) :
    new.foldl (fun ds d => if d ∈ ds then ds else ds ++ [d]) dirs = dirs := by
  induction new with
  | nil => rfl
  | cons x xs ih =>
    rw [List.foldl_cons, if_pos (h x (List.mem_cons_self ..))]
    exact ih fun d hd => h d (List.mem_cons_of_mem _ hd)

/-- The directories that the later steps write to. -/
def NeededDir (l : List Nat) (d : Str) : Prop :=
  d = "plots".toList ∨ d = "analysis".toList ∨ ∃ c ∈ l, d = "analysis/channel".toList ++ natStr c

theorem neededDirectories_mem (l : List Nat) (dirs : List Str) (d : Str) :
    d ∈ neededDirectories l dirs ↔ d ∈ dirs ∨ NeededDir l d := by
  unfold neededDirectories NeededDir
  rw [addDirs_mem]
  simp only [List.mem_cons, List.mem_map]
  constructor
  · rintro (h | h | h | ⟨c, hc, rfl⟩)
    · exact Or.inl h
    · exact Or.inr (Or.inl h)
    · exact Or.inr (Or.inr (Or.inl h))
    · exact Or.inr (Or.inr (Or.inr ⟨c, hc, rfl⟩))
  · rintro (h | h | h | ⟨c, hc, rfl⟩)
    · exact Or.inl h
    · exact Or.inr (Or.inl h)
    · exact Or.inr (Or.inr (Or.inl h))
    · exact Or.inr (Or.inr (Or.inr ⟨c, hc, rfl⟩))

/-- **C123 (partial).** With a sequence of channels and an existing configuration the outcome is that of the dialogue: the channels
and the answers if it ends, its exception otherwise. The directories for the results exist, in either case, all others are as before,
and the file is not touched before the dialogue. -/
theorem C123_load_partial (env : PEnv) (ans : Key → Str) (l : List Nat) (w : StartWorld) :
    (extractorInit env ans (.many l) true w).1.file = w.file ∧
    (∀ d, d ∈ (extractorInit env ans (.many l) true w).1.dirs ↔ d ∈ w.dirs ∨ NeededDir l d) ∧
    (extractorInit env ans (.many l) true w).1.asked = (requestConfig env ans ⟨cfgOf w.file, cfgOf w.file, []⟩).1.asked ∧
    (∀ e, (extractorInit env ans (.many l) true w).2 = .error e ↔ (requestConfig env ans ⟨cfgOf w.file, cfgOf w.file, []⟩).2 = some e) ∧
    (∀ r, (extractorInit env ans (.many l) true w).2 = .ok r ↔ (requestConfig env ans ⟨cfgOf w.file, cfgOf w.file, []⟩).2 = none ∧
      r = (l, (requestConfig env ans ⟨cfgOf w.file, cfgOf w.file, []⟩).1.cfg)) := by
  unfold extractorInit channelList
  simp only [if_true]
  cases h : (requestConfig env ans ⟨cfgOf w.file, cfgOf w.file, []⟩).2 with
  | none =>
    refine ⟨rfl, fun d => neededDirectories_mem l w.dirs d, rfl, ?_, ?_⟩
    · intro e; simp
    · intro r; simp [eq_comm]
  | some e =>
    refine ⟨rfl, fun d => neededDirectories_mem l w.dirs d, rfl, ?_, ?_⟩
    · intro e'; simp
    · intro r; simp

/-- The directories of a second run are those of the first. -/
theorem C123_again (env env' : PEnv) (ans ans' : Key → Str) (l : List Nat) (w : StartWorld) :
    (extractorInit env' ans' (.many l) true (extractorInit env ans (.many l) true w).1).1.dirs =
      (extractorInit env ans (.many l) true w).1.dirs := by
  have key : ∀ (env : PEnv) ans w, (extractorInit env ans (.many l) true w).1.dirs = neededDirectories l w.dirs := by
    intro env ans w
    unfold extractorInit channelList
    simp only [if_true]
    split <;> rfl
  rw [key, key]
  apply addDirs_same
  intro d hd
  unfold neededDirectories
  rw [addDirs_mem]
  exact Or.inr hd

/-! ### Examples -/

/-- Three photos, one per two seconds, in `run/`. -/
def startExample : StartCfg :=
  { dir := "run/".toList, name := ⟨"IMG_".toList, 0, ".JPG".toList⟩, firstExp := "7".toList, lastExp := "9".toList,
    firstAna := "None".toList, lastAna := "None".toList, skip := "1".toList, startTime := "None".toList, date := "2018:11:27".toList,
    offset := "3602".toList }

def startExif (p : Str) : Except PyErr Str :=
  if p = "run/IMG_7.JPG".toList then .ok "2018:11:27 00:00:01".toList
  else if p = "run/IMG_8.JPG".toList then .ok "2018:11:27 00:00:03".toList
  else if p = "run/IMG_9.JPG".toList then .ok "2018:11:27 00:00:05".toList
  else .error .fileNotFound

example : (imageInfos startExif .analysis "7".toList "9".toList startExample).map (fun r => r.2.map fun x => (x.idx, String.ofList x.name,
    String.ofList x.time, String.ofList x.expTime)) =
    .ok [(1, "IMG_7.JPG", "22:59:59", "-82798.0"), (2, "IMG_9.JPG", "23:00:03", "-82794.0")] := by decide +kernel

example : (imageInfos startExif .experiment "7".toList "9".toList { startExample with dir := "run".toList }).map (fun r => r.2.length) =
    .error .fileNotFound := by decide +kernel

example : (imageInfos startExif .experiment "7".toList "9".toList { startExample with dir := "run".toList, startTime := "12:00:00".toList }).map
    (fun r => r.2.length) = .ok 3 := by decide +kernel

example : (imageInfos startExif .experiment "7".toList "9".toList { startExample with firstExp := "0007".toList }).map (fun r => r.2.length) =
    .error .fileNotFound := by decide +kernel

example : neededDirectories [0, 2] ["analysis".toList] =
    ["analysis".toList, "plots".toList, "analysis/channel0".toList, "analysis/channel2".toList] := by decide +kernel

end Ledsa
