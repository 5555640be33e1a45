import Verif.Model.Demo
import Verif.Props.SimData
import Verif.Props.Config

/-!
# The demo: editing configuration files (C66) and the number of cores (C75)
-/

namespace Ledsa

/-! ### Lines of a file -/

/-- The lines of a text file: every line ends with its line end, which the last one may lack. -/
inductive IsLines : List Str → Prop
  | nil : IsLines []
  | last (b : Str) (h : b ≠ []) (hn : '\n' ∉ b) : IsLines [b]
  | cons (b : Str) (ls : List Str) (hn : '\n' ∉ b) (h : IsLines ls) : IsLines ((b ++ ['\n']) :: ls)

theorem readlines_append_nl (b t : Str) (h : '\n' ∉ b) : readlines (b ++ '\n' :: t) = (b ++ ['\n']) :: readlines t := by
  induction b with
  | nil => simp [readlines]
  | cons c b ih =>
    have hc : c ≠ '\n' := by rintro rfl; simp at h
    rw [List.cons_append, readlines, if_neg hc, ih (fun hm => h (by simp [hm]))]
    rfl

theorem readlines_no_nl (b : Str) (hb : b ≠ []) (h : '\n' ∉ b) : readlines b = [b] := by
  induction b with
  | nil => exact absurd rfl hb
  | cons c b ih =>
    have hc : c ≠ '\n' := by rintro rfl; simp at h
    rw [readlines, if_neg hc]
    cases b with
    | nil => rfl
    | cons d b => rw [ih (by simp) (fun hm => h (by simp [hm]))]

theorem readlines_flatten {ls : List Str} (h : IsLines ls) : readlines ls.flatten = ls := by
  induction h with
  | nil => rfl
  | last b hb hn => simpa using readlines_no_nl b hb hn
  | cons b ls hn _ ih => rw [List.flatten_cons, List.append_assoc, List.singleton_append, readlines_append_nl b _ hn, ih]

theorem flatten_readlines (s : Str) : (readlines s).flatten = s := by
  induction s with
  | nil => rfl
  | cons c s ih =>
    rw [readlines]
    by_cases hc : c = '\n'
    · rw [if_pos hc, List.flatten_cons, ih, hc]; rfl
    · rw [if_neg hc]
      cases h : readlines s with
      | nil => rw [h] at ih; simp at ih; simp [← ih]
      | cons l ls => rw [h] at ih; simp at ih; simp [ih]

theorem isLines_cons_char {c : Char} (hc : c ≠ '\n') {l : Str} {ls : List Str} (h : IsLines (l :: ls)) :
    IsLines ((c :: l) :: ls) := by
  cases h with
  | last _ h hn => exact .last _ (by simp) (by simp only [List.mem_cons, not_or]; exact ⟨Ne.symm hc, hn⟩)
  | cons b _ hn h => exact .cons (c :: b) ls (by simp only [List.mem_cons, not_or]; exact ⟨Ne.symm hc, hn⟩) h

theorem isLines_readlines (s : Str) : IsLines (readlines s) := by
  induction s with
  | nil => exact .nil
  | cons c s ih =>
    rw [readlines]
    by_cases hc : c = '\n'
    · rw [if_pos hc]
      exact .cons [] _ (by simp) ih
    · rw [if_neg hc]
      cases h : readlines s with
      | nil => exact .last _ (by simp) (by simpa using Ne.symm hc)
      | cons l ls => rw [h] at ih; exact isLines_cons_char hc ih

/-- Every text has exactly one division into lines. -/
theorem isLines_unique {a b : List Str} (ha : IsLines a) (hb : IsLines b) (h : a.flatten = b.flatten) : a = b := by
  rw [← readlines_flatten ha, ← readlines_flatten hb, h]

/-! ### C66 -/

theorem takeWhile_eqsign {p r : Str} (h : '=' ∉ p) : (p ++ '=' :: r).takeWhile (· ≠ '=') = p := by
  induction p with
  | nil => simp
  | cons c p ih =>
    have hc : c ≠ '=' := by rintro rfl; simp at h
    rw [List.cons_append, List.takeWhile_cons_of_pos (by simpa using hc), ih (fun hm => h (by simp [hm]))]

theorem split_eqsign {l : Str} (h : '=' ∈ l) : ∃ p r, l = p ++ '=' :: r ∧ '=' ∉ p := by
  induction l with
  | nil => simp at h
  | cons c l ih =>
    by_cases hc : c = '='
    · exact ⟨[], l, by rw [hc]; rfl, by simp⟩
    · obtain ⟨p, r, e, hp⟩ := ih (by
        rcases List.mem_cons.1 h with h | h
        · exact absurd h.symm hc
        · exact h)
      refine ⟨c :: p, r, by rw [e]; rfl, ?_⟩
      simp only [List.mem_cons, not_or]
      exact ⟨Ne.symm hc, hp⟩

theorem replaceLine_hit (w v p r : Str) (hp : '=' ∉ p) (h : w <:+: p ++ '=' :: r) :
    replaceLine w v (p ++ '=' :: r) = p ++ "= ".toList ++ v ++ ['\n'] := by
  unfold replaceLine
  rw [if_pos ⟨h, by simp⟩, takeWhile_eqsign hp]
  simp

theorem replaceLine_miss (w v l : Str) (h : ¬ (w <:+: l ∧ '=' ∈ l)) : replaceLine w v l = l := if_neg h

theorem isLines_map {ls : List Str} (h : IsLines ls) (w v : Str) (hv : '\n' ∉ v) :
    IsLines (ls.map (replaceLine w v)) := by
  have key : ∀ l : Str, (w <:+: l ∧ '=' ∈ l) → '\n' ∉ l.dropLast →
      ∃ b, '\n' ∉ b ∧ replaceLine w v l = b ++ ['\n'] := by
    intro l hl hn
    obtain ⟨p, r, e, hp⟩ := split_eqsign hl.2
    refine ⟨p ++ "= ".toList ++ v, ?_, by rw [e]; exact replaceLine_hit w v p r hp (e ▸ hl.1)⟩
    have hp' : '\n' ∉ p := by
      intro hm
      apply hn
      rw [e, List.dropLast_append_cons]
      simp [hm]
    simp only [List.mem_append, not_or]
    exact ⟨⟨hp', by decide⟩, hv⟩
  induction h with
  | nil => exact .nil
  | last b hb hn =>
    by_cases hl : w <:+: b ∧ '=' ∈ b
    · obtain ⟨c, hc, e⟩ := key b hl (fun hm => hn (List.dropLast_subset _ hm))
      rw [List.map_singleton, e]
      exact .cons c [] hc .nil
    · rw [List.map_singleton, replaceLine_miss w v b hl]
      exact .last b hb hn
  | cons b ls hn _ ih =>
    rw [List.map_cons]
    by_cases hl : w <:+: b ++ ['\n'] ∧ '=' ∈ b ++ ['\n']
    · obtain ⟨c, hc, e⟩ := key _ hl (by simpa using hn)
      rw [e]
      exact .cons c _ hc ih
    · rw [replaceLine_miss w v _ hl]
      exact .cons b _ hn ih

/-- **C66.** Setting a parameter: the edited file has as many lines as the file, a line with the name and `=` keeps everything
before its first `=` and is followed by the value, every other line is kept. Missing: values that contain a line end
(`C66_line_end_false`). -/
theorem C66_lines_partial (w v : Str) (hv : '\n' ∉ v) (ls : List Str) (h : IsLines ls) :
    ∃ ls', IsLines ls' ∧ replaceParams w v ls.flatten = ls'.flatten ∧ ls'.length = ls.length ∧
      ∀ (i : Nat) (l : Str), ls[i]? = some l →
        (w <:+: l → ∀ p r, l = p ++ '=' :: r → '=' ∉ p → ls'[i]? = some (p ++ "= ".toList ++ v ++ ['\n'])) ∧
        ((¬ w <:+: l ∨ '=' ∉ l) → ls'[i]? = some l) := by
  refine ⟨ls.map (replaceLine w v), isLines_map h w v hv, by rw [replaceParams, readlines_flatten h], by simp, ?_⟩
  intro i l hl
  constructor
  · intro hw p r e hp
    rw [List.getElem?_map, hl, Option.map_some, e, replaceLine_hit w v p r hp (e ▸ hw)]
  · intro hm
    rw [List.getElem?_map, hl, Option.map_some, replaceLine_miss]
    rintro ⟨a, b⟩
    rcases hm with hm | hm
    · exact hm a
    · exact hm b

/-- Every file is such a sequence of lines. -/
theorem C66_files (s : Str) : ∃ ls, IsLines ls ∧ s = ls.flatten := ⟨_, isLines_readlines s, (flatten_readlines s).symm⟩

/-- Refuted: a value with a line end adds a line. -/
theorem C66_line_end_false : ∃ ls ls', IsLines ls ∧ IsLines ls' ∧
    replaceParams "a".toList "1\n2".toList ls.flatten = ls'.flatten ∧ ls'.length ≠ ls.length :=
  ⟨["a = 0\n".toList], ["a = 1\n".toList, "2\n".toList], .cons "a = 0".toList [] (by decide) .nil,
    .cons "a = 1".toList _ (by decide) (.cons "2".toList [] (by decide) .nil), by decide +kernel, by decide⟩

theorem replaceParams_two (w v1 v2 : Str) (h1 : '\n' ∉ v1) (s : Str) :
    replaceParams w v2 (replaceParams w v1 s) =
      ((readlines s).map (fun l => replaceLine w v2 (replaceLine w v1 l))).flatten := by
  have h := isLines_map (isLines_readlines s) w v1 h1
  rw [replaceParams, replaceParams, readlines_flatten h, List.map_map]
  rfl

/-- **C66.** Setting a parameter twice to the same value is the same as once, for every file, name and value without line
end. -/
theorem C66_twice (w v : Str) (hv : '\n' ∉ v) (s : Str) :
    replaceParams w v (replaceParams w v s) = replaceParams w v s := by
  rw [replaceParams_two w v v hv, replaceParams]
  congr 1
  apply List.map_congr_left
  intro l _
  by_cases hl : w <:+: l ∧ '=' ∈ l
  · obtain ⟨p, r, rfl, hp⟩ := split_eqsign hl.2
    rw [replaceLine_hit w v p r hp hl.1]
    by_cases hw : w <:+: p ++ "= ".toList ++ v ++ ['\n']
    · have e : p ++ "= ".toList ++ v ++ ['\n'] = p ++ '=' :: (' ' :: v ++ ['\n']) := by simp
      rw [e] at hw ⊢
      rw [replaceLine_hit w v p _ hp hw]
      simp
    · exact replaceLine_miss _ _ _ (fun h => hw h.1)
  · rw [replaceLine_miss w v l hl, replaceLine_miss w v l hl]

/-- **C66.** The last value wins exactly if every edited line still contains the name after the first edit, or both values are
the same. -/
theorem C66_last_wins_iff (w v1 v2 : Str) (h1 : '\n' ∉ v1) (h2 : '\n' ∉ v2) (ls : List Str) (h : IsLines ls) :
    replaceParams w v2 (replaceParams w v1 ls.flatten) = replaceParams w v2 ls.flatten ↔
      ∀ p r, (p ++ '=' :: r) ∈ ls → '=' ∉ p → w <:+: p ++ '=' :: r → w <:+: p ++ "= ".toList ++ v1 ++ ['\n'] ∨ v1 = v2 := by
  have e : replaceParams w v2 ls.flatten = (ls.map (replaceLine w v2)).flatten := by rw [replaceParams, readlines_flatten h]
  have e2 : replaceParams w v2 (replaceParams w v1 ls.flatten) = ((ls.map (replaceLine w v1)).map (replaceLine w v2)).flatten := by
    rw [replaceParams_two w v1 v2 h1, readlines_flatten h, List.map_map]; rfl
  have step : ∀ l : Str, replaceLine w v2 (replaceLine w v1 l) = replaceLine w v2 l ↔
      ∀ p r, l = p ++ '=' :: r → '=' ∉ p → w <:+: p ++ '=' :: r → w <:+: p ++ "= ".toList ++ v1 ++ ['\n'] ∨ v1 = v2 := by
    intro l
    by_cases hl : w <:+: l ∧ '=' ∈ l
    · obtain ⟨p, r, rfl, hp⟩ := split_eqsign hl.2
      rw [replaceLine_hit w v1 p r hp hl.1, replaceLine_hit w v2 p r hp hl.1]
      have e : p ++ "= ".toList ++ v1 ++ ['\n'] = p ++ '=' :: (' ' :: v1 ++ ['\n']) := by simp
      constructor
      · intro he p' r' e' hp' _
        have : p = p' := by rw [← takeWhile_eqsign (r := r) hp, e', takeWhile_eqsign hp']
        subst this
        by_cases hw : w <:+: p ++ "= ".toList ++ v1 ++ ['\n']
        · exact .inl hw
        · rw [replaceLine_miss w v2 _ (fun h => hw h.1)] at he
          right
          simpa using he
      · intro hh
        by_cases hw : w <:+: p ++ "= ".toList ++ v1 ++ ['\n']
        · rw [e] at hw ⊢
          exact replaceLine_hit w v2 p _ hp hw
        · rcases hh p r rfl hp hl.1 with hh | hh
          · exact absurd hh hw
          · subst hh
            exact replaceLine_miss w v1 _ (fun h => hw h.1)
    · rw [replaceLine_miss w v1 l hl]
      refine ⟨fun _ p r e hp hw => ?_, fun _ => rfl⟩
      exact absurd ⟨e ▸ hw, by rw [e]; simp⟩ hl
  have hi : replaceParams w v2 (replaceParams w v1 ls.flatten) = replaceParams w v2 ls.flatten ↔
      (ls.map (replaceLine w v1)).map (replaceLine w v2) = ls.map (replaceLine w v2) := by
    rw [e, e2]
    refine ⟨fun hf => isLines_unique (isLines_map (isLines_map h w v1 h1) w v2 h2) (isLines_map h w v2 h2) hf,
      fun hf => by rw [hf]⟩
  rw [hi, List.map_map, List.map_inj_left]
  constructor
  · intro hh p r hm hp hw
    exact (step _).1 (hh _ hm) p r rfl hp hw
  · intro hh l hm
    exact (step l).2 (fun p r e hp hw => hh p r (e ▸ hm) hp hw)

/-- **C66.** If the name is the name of the option in every line that has the name and `=`, the last value wins. Missing: lines
where the name only occurs in the value (`C66_last_wins_false`). -/
theorem C66_last_wins_partial (w v1 v2 : Str) (h1 : '\n' ∉ v1) (h2 : '\n' ∉ v2) (ls : List Str) (h : IsLines ls)
    (hw : ∀ p r, (p ++ '=' :: r) ∈ ls → '=' ∉ p → w <:+: p ++ '=' :: r → w <:+: p) :
    replaceParams w v2 (replaceParams w v1 ls.flatten) = replaceParams w v2 ls.flatten := by
  rw [C66_last_wins_iff w v1 v2 h1 h2 ls h]
  intro p r hm hp hi
  left
  obtain ⟨a, b, e⟩ := hw p r hm hp hi
  exact ⟨a, b ++ "= ".toList ++ v1 ++ ['\n'], by rw [← e]; simp⟩

/-- Refuted: a line that only mentions the name in its value takes the first value and keeps it. -/
theorem C66_last_wins_false : ∃ s : Str,
    replaceParams "num_cores".toList "2".toList (replaceParams "num_cores".toList "8".toList s) ≠
      replaceParams "num_cores".toList "2".toList s :=
  ⟨"note = num_cores below\n".toList, by decide +kernel⟩

example : replaceParams "num_cores".toList "8".toList "[DEFAULT]\n   num_cores = 4\n# cores\nlast = 1".toList =
    "[DEFAULT]\n   num_cores = 8\n# cores\nlast = 1".toList := by decide +kernel

/-! ### C75: what an edit does to a configuration -/

/-- The configuration with the value of every option whose name contains the word replaced. -/
def editIni (w v : Str) (c : Ini) : Ini :=
  c.map fun s => (s.1, s.2.map fun i => if w <:+: i.1 then (i.1, i.2.map fun _ => [v]) else i)

/-- Configuration files in which the word only occurs in names of options with a value on one line. -/
structure Editable (w : Str) (c : Ini) : Prop where
  lines : ∀ l ∈ writeIni c, '\n' ∉ l
  header : ∀ s ∈ c, ¬ w <:+: '[' :: s.1 ++ [']']
  keys : ∀ s ∈ c, ∀ i ∈ s.2, w <:+: i.1 → '=' ∉ i.1 ∧ ∃ x, i.2 = some [x]
  others : ∀ s ∈ c, ∀ i ∈ s.2, ¬ w <:+: i.1 → ∀ l ∈ writeItem i, ¬ w <:+: l

theorem isLines_unlines (ls : List Str) (h : ∀ l ∈ ls, '\n' ∉ l) : IsLines (ls.map (· ++ ['\n'])) := by
  induction ls with
  | nil => exact .nil
  | cons l ls ih => exact .cons l _ (h l (by simp)) (ih (fun m hm => h m (List.mem_cons_of_mem _ hm)))

theorem unlines_eq (ls : List Str) : unlines ls = (ls.map (· ++ ['\n'])).flatten := by
  rw [unlines, List.flatMap_def]

theorem filter_no_nl {l : Str} (h : '\n' ∉ l) : l.filter (· ≠ '\n') = l := by
  rw [List.filter_eq_self]
  intro c hc
  simp only [ne_eq, decide_eq_true_eq]
  rintro rfl
  exact h hc

/-- A file written line by line is read line by line. -/
theorem linesOf_unlines (ls : List Str) (h : ∀ l ∈ ls, '\n' ∉ l) : linesOf (unlines ls) = ls := by
  rw [linesOf, unlines_eq, readlines_flatten (isLines_unlines ls h), List.map_map]
  conv_rhs => rw [← List.map_id ls]
  apply List.map_congr_left
  intro l hl
  simp only [Function.comp_apply, id_eq, List.filter_append]
  rw [filter_no_nl (h l hl)]
  simp

/-- What an edit does to a line without its line end. -/
def editLine (w v l : Str) : Str :=
  if w <:+: l ∧ '=' ∈ l then l.takeWhile (· ≠ '=') ++ "= ".toList ++ v else l

theorem replaceLine_nl (w v l : Str) (hw : '\n' ∉ w) : replaceLine w v (l ++ ['\n']) = editLine w v l ++ ['\n'] := by
  have h1 : w <:+: l ++ ['\n'] ↔ w <:+: l := by
    constructor
    · intro h
      rcases infix_sep hw h with h | h
      · exact h
      · rw [List.infix_nil] at h
        rw [h]
        exact List.nil_infix
    · rintro ⟨a, b, e⟩
      exact ⟨a, b ++ ['\n'], by rw [← e]; simp⟩
  have h2 : '=' ∈ l ++ ['\n'] ↔ '=' ∈ l := by simp
  unfold replaceLine editLine
  by_cases h : w <:+: l ∧ '=' ∈ l
  · rw [if_pos ⟨h1.2 h.1, h2.2 h.2⟩, if_pos h]
    obtain ⟨p, r, rfl, hp⟩ := split_eqsign h.2
    have e : (p ++ '=' :: r) ++ ['\n'] = p ++ '=' :: (r ++ ['\n']) := by simp
    rw [e, takeWhile_eqsign hp, takeWhile_eqsign hp]
    simp
  · rw [if_neg (fun hh => h ⟨h1.1 hh.1, h2.1 hh.2⟩), if_neg h]

theorem editLine_no_nl (w v l : Str) (hv : '\n' ∉ v) (hl : '\n' ∉ l) : '\n' ∉ editLine w v l := by
  unfold editLine
  split
  · simp only [List.mem_append, not_or]
    exact ⟨⟨fun h => hl (List.takeWhile_subset _ h), by decide⟩, hv⟩
  · exact hl

theorem replaceParams_unlines (w v : Str) (hw : '\n' ∉ w) (ls : List Str) (h : ∀ l ∈ ls, '\n' ∉ l) :
    replaceParams w v (unlines ls) = unlines (ls.map (editLine w v)) := by
  rw [replaceParams, unlines_eq, readlines_flatten (isLines_unlines ls h), unlines_eq, List.map_map, List.map_map]
  congr 1
  apply List.map_congr_left
  intro l _
  exact replaceLine_nl w v l hw

theorem editLine_item (w v : Str) (i : IniItem)
    (hk : w <:+: i.1 → '=' ∉ i.1 ∧ ∃ x, i.2 = some [x]) (ho : ¬ w <:+: i.1 → ∀ l ∈ writeItem i, ¬ w <:+: l) :
    (writeItem i).map (editLine w v) = writeItem (if w <:+: i.1 then (i.1, i.2.map fun _ => [v]) else i) := by
  by_cases h : w <:+: i.1
  · rw [if_pos h]
    obtain ⟨hn, x, hx⟩ := hk h
    obtain ⟨k, o⟩ := i
    simp only at hx hn h
    subst hx
    simp only [writeItem, List.map_cons, List.map_nil, Option.map_some]
    congr 1
    have hl : w <:+: k ++ " = ".toList ++ x := by
      obtain ⟨a, b, e⟩ := h
      exact ⟨a, b ++ " = ".toList ++ x, by rw [← e]; simp⟩
    have e : k ++ " = ".toList ++ x = (k ++ [' ']) ++ '=' :: (' ' :: x) := by simp
    unfold editLine
    rw [if_pos ⟨hl, by rw [e]; simp⟩, e, takeWhile_eqsign (by simp [hn])]
    simp
  · rw [if_neg h]
    conv_rhs => rw [← List.map_id (writeItem i)]
    apply List.map_congr_left
    intro l hl
    exact if_neg (fun hh => ho h l hl hh.1)

/-- The file of an edited configuration is the edited file. -/
theorem edit_file (w v : Str) (hw : '\n' ∉ w) (hv : '\n' ∉ v) (c : Ini) (h : Editable w c) :
    linesOf (replaceParams w v (unlines (writeIni c))) = writeIni (editIni w v c) := by
  rw [replaceParams_unlines w v hw _ h.lines, linesOf_unlines]
  · have sec : ∀ s ∈ c, (writeSection s).map (editLine w v) =
        writeSection (s.1, s.2.map fun i => if w <:+: i.1 then (i.1, i.2.map fun _ => [v]) else i) := by
      intro s hs
      unfold writeSection
      rw [List.map_cons, List.map_append, List.map_flatMap, List.flatMap_map]
      congr 1
      · exact if_neg (fun hh => h.header s hs hh.1)
      · congr 1
        · have hit : ∀ i ∈ s.2, (writeItem i).map (editLine w v) =
              writeItem (if w <:+: i.1 then (i.1, i.2.map fun _ => [v]) else i) := fun i hi =>
            editLine_item w v i (h.keys s hs i hi) (h.others s hs i hi)
          rw [List.flatMap_def, List.flatMap_def]
          congr 1
          exact List.map_congr_left hit
        · rw [List.map_singleton]
          unfold editLine
          rw [if_neg (by simp)]
    unfold writeIni editIni
    rw [List.map_flatMap, List.flatMap_map, List.flatMap_def, List.flatMap_def]
    congr 1
    exact List.map_congr_left sec
  · intro l hl
    obtain ⟨m, hm, rfl⟩ := List.mem_map.1 hl
    exact editLine_no_nl w v m hv (h.lines m hm)

theorem goodItem_edit {n : Nat} (w v : Str) (i : IniItem) (h : GoodItem n i) :
    GoodItem n (if w <:+: i.1 then (i.1, i.2.map fun _ => [v]) else i) := by
  by_cases hw : w <:+: i.1
  · rw [if_pos hw]
    cases h with
    | comment k hk => exact .comment k hk
    | option sp nm l ls hsp hl hn _ => exact .option sp nm v [] hsp hl hn (by simp)
  · rw [if_neg hw]; exact h

theorem names_edit (w v : Str) (items : List IniItem) :
    ((items.map fun i => if w <:+: i.1 then (i.1, i.2.map fun _ => [v]) else i).flatMap loadItem).map (·.1) =
      (items.flatMap loadItem).map (·.1) := by
  induction items with
  | nil => rfl
  | cons i items ih =>
    rw [List.map_cons, List.flatMap_cons, List.flatMap_cons, List.map_append, List.map_append, ih]
    congr 1
    by_cases hw : w <:+: i.1
    · rw [if_pos hw]
      obtain ⟨k, _ | ls⟩ := i <;> rfl
    · rw [if_neg hw]

theorem goodIni_edit (w v : Str) (c : Ini) (h : GoodIni c) : GoodIni (editIni w v c) where
  names := by
    have : (editIni w v c).map (·.1) = c.map (·.1) := by simp [editIni, Function.comp_def]
    rw [this]; exact h.names
  header := by
    intro s hs
    obtain ⟨t, ht, rfl⟩ := List.mem_map.1 hs
    exact h.header t ht
  items := by
    intro s hs
    obtain ⟨t, ht, rfl⟩ := List.mem_map.1 hs
    obtain ⟨n, hn⟩ := h.items t ht
    refine ⟨n, ?_⟩
    intro i hi
    obtain ⟨j, hj, rfl⟩ := List.mem_map.1 hi
    exact goodItem_edit w v j (hn j hj)
  options := by
    intro s hs
    obtain ⟨t, ht, rfl⟩ := List.mem_map.1 hs
    rw [names_edit]
    exact h.options t ht

/-! White space does not matter for names without white space. -/

theorem infix_cons_not_mem {w : Str} {c : Char} {s : Str} (hne : w ≠ []) (hc : c ∉ w) (h : w <:+: c :: s) : w <:+: s := by
  rcases List.infix_cons_iff.1 h with h | h
  · cases w with
    | nil => exact absurd rfl hne
    | cons d w =>
      obtain ⟨t, ht⟩ := h
      rw [List.cons_append] at ht
      exact absurd (by rw [(List.cons.inj ht).1]; simp) hc
  · exact h

theorem infix_dropWhile {w : Str} (hne : w ≠ []) (hw : ∀ c ∈ w, isWs c = false) (s : Str) (h : w <:+: s) :
    w <:+: s.dropWhile isWs := by
  induction s with
  | nil => exact h
  | cons c s ih =>
    by_cases hc : isWs c = true
    · rw [List.dropWhile_cons_of_pos hc]
      exact ih (infix_cons_not_mem hne (fun hm => by rw [hw c hm] at hc; cases hc) h)
    · rwa [List.dropWhile_cons_of_neg hc]

theorem infix_strip {w : Str} (hne : w ≠ []) (hw : ∀ c ∈ w, isWs c = false) (s : Str) : w <:+: strip s ↔ w <:+: s := by
  constructor
  · intro h
    unfold strip at h
    rw [← List.reverse_infix, List.reverse_reverse] at h
    have h2 := h.trans (List.dropWhile_suffix _).isInfix
    rw [List.reverse_infix] at h2
    exact h2.trans (List.dropWhile_suffix _).isInfix
  · intro h
    unfold strip
    rw [← List.reverse_infix, List.reverse_reverse]
    exact infix_dropWhile (by simpa using hne) (by simpa using hw) _
      (List.reverse_infix.2 (infix_dropWhile hne hw s h))

theorem normLines_single (x : Str) (h : strip x = x) : normLines [x] = [x] := by
  rw [normLines, List.map_singleton, h]
  simp only [List.reverse_singleton, joinLines]
  cases x with
  | nil => rfl
  | cons c t => rw [List.dropWhile_cons_of_neg (by simp)]; rfl

theorem items_of_loaded (c : Ini) (n : Str) : ((loaded c).filter fun s => s.1 = n).flatMap (·.2) =
    ((c.filter fun s => s.1 = n).flatMap (·.2)).flatMap loadItem := by
  unfold loaded
  induction c with
  | nil => rfl
  | cons s c ih =>
    simp only [List.map_cons]
    by_cases hs : s.1 = n
    · rw [List.filter_cons_of_pos (by simpa using hs), List.filter_cons_of_pos (by simpa using hs), List.flatMap_cons,
        List.flatMap_cons, List.flatMap_append, ih]
    · rw [List.filter_cons_of_neg (by simpa using hs), List.filter_cons_of_neg (by simpa using hs), ih]

/-- An edited configuration has the same options; those whose name contains the word have the new value, the others keep
theirs. -/
theorem lookup_edit (w v : Str) (hne : w ≠ []) (hw : ∀ c ∈ w, isWs c = false) (hv : strip v = v) (c : Ini)
    (sec key : Str) :
    lookup (loaded (editIni w v c)) sec key =
      if w <:+: key then (lookup (loaded c) sec key).map (·.map fun _ => [v]) else lookup (loaded c) sec key := by
  have find : ∀ items : List IniItem,
      (((items.map fun i => if w <:+: i.1 then (i.1, i.2.map fun _ => [v]) else i).flatMap loadItem).find?
        fun i => i.1 = key) =
      if w <:+: key then ((items.flatMap loadItem).find? fun i => i.1 = key).map fun i => (i.1, i.2.map fun _ => [v])
      else (items.flatMap loadItem).find? fun i => i.1 = key := by
    intro items
    induction items with
    | nil => simp
    | cons i items ih =>
      rw [List.map_cons, List.flatMap_cons, List.flatMap_cons, List.find?_append, List.find?_append, ih]
      obtain ⟨k, _ | ls⟩ := i
      · by_cases hi : w <:+: k <;> by_cases hk : w <:+: key <;> simp [hi, hk, loadItem]
      · have hs := infix_strip hne hw k
        by_cases hk : strip k = key
        · subst hk
          by_cases hi : w <:+: k
          · rw [if_pos (hs.2 hi), if_pos hi, if_pos (hs.2 hi)]
            simp [loadItem, normLines_single v hv]
          · rw [if_neg (fun h => hi (hs.1 h)), if_neg hi, if_neg (fun h => hi (hs.1 h))]
        · by_cases hi : w <:+: k <;> by_cases hk' : w <:+: key <;> simp [hi, hk, hk', loadItem]
  have secs : ∀ (n : Str), ((loaded (editIni w v c)).filter fun s => s.1 = n).flatMap (·.2) =
      ((((c.filter fun s => s.1 = n).flatMap (·.2)).map
        fun i => if w <:+: i.1 then (i.1, i.2.map fun _ => [v]) else i).flatMap loadItem) := by
    intro n
    unfold loaded editIni
    induction c with
    | nil => rfl
    | cons s c ih =>
      simp only [List.map_cons]
      by_cases hs : s.1 = n
      · rw [List.filter_cons_of_pos (by simpa using hs), List.filter_cons_of_pos (by simpa using hs), List.flatMap_cons,
          List.flatMap_cons, List.map_append, List.flatMap_append, ih]
      · rw [List.filter_cons_of_neg (by simpa using hs), List.filter_cons_of_neg (by simpa using hs), ih]
  unfold lookup
  rw [secs, secs, items_of_loaded, items_of_loaded, find, find]
  by_cases hk : w <:+: key
  · simp only [if_pos hk]
    cases (List.flatMap loadItem ((c.filter fun s => s.1 = sec).flatMap (·.2))).find? fun i => i.1 = key with
    | some i => rfl
    | none =>
      simp only [Option.map_none, Option.map_map]
      rfl
  · simp only [if_neg hk]

/-- **C75.** For a core count from two on and every configuration file in which the word `num_cores` only occurs as the name of
an option with a value on one line: the demo reads the given count, wherever the option stood before, and all other options
are as before. -/
theorem C75_any_file_partial (k : Nat) (hk : 2 ≤ k) (c : Ini) (hg : GoodIni c) (he : Editable "num_cores".toList c) :
    ∃ c', readIni (linesOf (demoEdit (demoCores (some k)) (unlines (writeIni c)))) = .ok c' ∧
      (∀ sec, (∃ x, lookup (loaded c) sec "num_cores".toList = some (some x)) → coresOf c' sec = .ok (k : Int)) ∧
      (∀ sec key, ¬ "num_cores".toList <:+: key → lookup c' sec key = lookup (loaded c) sec key) := by
  have hn : '\n' ∉ natStr k := fun hm => absurd (natStr_isDigit k _ hm) (by decide)
  have hs : strip (natStr k) = natStr k := by
    apply strip_eq_self
    intro c hc
    have := natStr_isDigit k c hc
    cases hw : isWs c with
    | false => rfl
    | true =>
      unfold isWs at hw
      simp only [Bool.or_eq_true, beq_iff_eq] at hw
      rcases hw with ((((rfl | rfl) | rfl) | rfl) | rfl) | rfl <;> revert this <;> decide
  have hc : demoCores (some k) = k := by simp [demoCores]; omega
  refine ⟨loaded (editIni "num_cores".toList (natStr k) c), ?_, ?_, ?_⟩
  · rw [hc, demoEdit, if_pos (by omega), edit_file _ _ (by decide) hn c he]
    exact C55_round_trip _ (goodIni_edit _ _ c hg)
  · rintro sec ⟨x, hx⟩
    rw [coresOf, lookup_edit _ _ (by decide) (by decide) hs, if_pos List.infix_rfl, hx]
    simp only [Option.map_some, joinChar]
    exact pyInt_natStr k
  · intro sec key hkey
    rw [lookup_edit _ _ (by decide) (by decide) hs, if_neg hkey]

/-- Values for a new configuration whose core count is on one line, without the words `num_cores` elsewhere. -/
structure CoreArgs (v : Arg → List Str) : Prop where
  good : GoodArgs v
  lines : ∀ a, ∀ l ∈ v a, '\n' ∉ l
  single : ∃ x, v .numCores = [x]
  word : ∀ a, a ≠ .numCores → ∀ l ∈ v a, ¬ "num_cores".toList <:+: l

theorem newConfig_editable (v : Arg → List Str) (hv : CoreArgs v) : Editable "num_cores".toList (newConfig v) := by
  have t1 : ∀ s ∈ newEntries, ¬ "num_cores".toList <:+: '[' :: s.1 ++ [']'] ∧ '\n' ∉ s.1 := by decide +kernel
  have t2 : ∀ s ∈ newEntries, ∀ i ∈ s.2, '\n' ∉ i.1 ∧
      if "num_cores".toList <:+: i.1 then '=' ∉ i.1 ∧ i.2 = some .numCores else i.2 ≠ some .numCores := by decide +kernel
  constructor
  · intro l hl
    obtain ⟨s, hs, hl⟩ := List.mem_flatMap.1 hl
    obtain ⟨t, ht, rfl⟩ := List.mem_map.1 hs
    unfold writeSection at hl
    rcases List.mem_cons.1 hl with rfl | hl
    · have := (t1 t ht).2
      simp only [List.cons_append, List.mem_cons, List.mem_append, List.not_mem_nil, or_false, not_or]
      exact ⟨by decide, this, by decide⟩
    · rcases List.mem_append.1 hl with hl | hl
      · obtain ⟨i, hi, hl⟩ := List.mem_flatMap.1 hl
        obtain ⟨j, hj, rfl⟩ := List.mem_map.1 hi
        have hk := (t2 t ht j hj).1
        obtain ⟨k, _ | a⟩ := j
        · simp only [Option.map_none, writeItem, List.mem_singleton] at hl
          rw [hl]; exact hk
        · simp only [Option.map_some] at hl
          have hb : '\n' ∉ " = ".toList := by decide
          cases hva : v a with
          | nil =>
            rw [hva] at hl
            simp only [writeItem, List.mem_singleton] at hl
            rw [hl, List.mem_append, not_or]
            exact ⟨hk, hb⟩
          | cons x xs =>
            have hx := hv.lines a
            rw [hva] at hl hx
            simp only [writeItem, List.mem_cons, List.mem_map] at hl
            rcases hl with rfl | ⟨y, hy, rfl⟩
            · rw [List.mem_append, List.mem_append, not_or, not_or]
              exact ⟨⟨hk, hb⟩, hx x (by simp)⟩
            · simp only [List.mem_cons, not_or]
              exact ⟨by decide, hx y (by simp [hy])⟩
      · rw [List.mem_singleton.1 hl]; simp
  · intro s hs
    obtain ⟨t, ht, rfl⟩ := List.mem_map.1 hs
    exact (t1 t ht).1
  · intro s hs i hi hw
    obtain ⟨t, ht, rfl⟩ := List.mem_map.1 hs
    obtain ⟨j, hj, rfl⟩ := List.mem_map.1 hi
    have := (t2 t ht j hj).2
    rw [if_pos hw] at this
    obtain ⟨x, hx⟩ := hv.single
    exact ⟨this.1, x, by simp [this.2, hx]⟩
  · intro s hs i hi hw l hl
    obtain ⟨t, ht, rfl⟩ := List.mem_map.1 hs
    obtain ⟨j, hj, rfl⟩ := List.mem_map.1 hi
    have hno := (t2 t ht j hj).2
    rw [if_neg hw] at hno
    obtain ⟨k, _ | a⟩ := j
    · simp only [Option.map_none, writeItem, List.mem_singleton] at hl
      rw [hl]; exact hw
    · have ha : a ≠ .numCores := fun h => hno (by rw [h])
      simp only [Option.map_some] at hl
      have hx := hv.word a ha
      cases hva : v a with
      | nil =>
        rw [hva] at hl
        simp only [writeItem, List.mem_singleton] at hl
        rw [hl]
        intro h
        rcases infix_sep (sep := ' ') (by decide) h with h | h
        · exact hw h
        · revert h; decide
      | cons x xs =>
        rw [hva] at hl hx
        simp only [writeItem, List.mem_cons, List.mem_map] at hl
        rcases hl with rfl | ⟨y, hy, rfl⟩
        · intro h
          have e : k ++ " = ".toList ++ x = k ++ ' ' :: ('=' :: ' ' :: x) := by simp
          rw [e] at h
          rcases infix_sep (by decide) h with h | h
          · exact hw h
          · exact hx x (by simp) (infix_cons_not_mem (by decide) (by decide) (infix_cons_not_mem (by decide) (by decide) h))
        · intro h
          exact hx y (by simp [hy]) (infix_cons_not_mem (by decide) (by decide) h)

theorem lookup_cores (v : Arg → List Str) :
    lookup (loaded (newConfig v)) "analyse_photo".toList "num_cores".toList = some (some (normLines (v .numCores))) := by
  rfl

/-- **C75.** On a new configuration, of the demo or any other, the demo started with a count from two on uses that many
cores. Missing: one core (`C75_false`). -/
theorem C75_partial (k : Nat) (hk : 2 ≤ k) (v : Arg → List Str) (hv : CoreArgs v) :
    demoUses (some k) "analyse_photo".toList (unlines (writeIni (newConfig v))) = .ok (k : Int) := by
  obtain ⟨c', h1, h2, -⟩ := C75_any_file_partial k hk (newConfig v) (newConfig_good v hv.good) (newConfig_editable v hv)
  unfold demoUses
  rw [h1]
  simp only
  rw [h2 _ ⟨_, lookup_cores v⟩]
  simp only [poolSize]
  rw [if_pos (by omega)]

/-- **C75.** With one core, with no count and with count zero the number in the file counts. -/
theorem C75_one (nCores : Option Nat) (hk : nCores = some 1 ∨ nCores = none ∨ nCores = some 0) (n : Nat)
    (v : Arg → List Str) (hv : CoreArgs v) (hn : v .numCores = [natStr n]) :
    demoUses nCores "analyse_photo".toList (unlines (writeIni (newConfig v))) = .ok (max (n : Int) 1) := by
  have hc : demoCores nCores = 1 := by rcases hk with rfl | rfl | rfl <;> rfl
  have hs : strip (natStr n) = natStr n := by
    apply strip_eq_self
    intro c hc
    have := natStr_isDigit n c hc
    cases hw : isWs c with
    | false => rfl
    | true =>
      unfold isWs at hw
      simp only [Bool.or_eq_true, beq_iff_eq] at hw
      rcases hw with ((((rfl | rfl) | rfl) | rfl) | rfl) | rfl <;> revert this <;> decide
  unfold demoUses
  rw [hc, demoEdit, if_neg (by simp), linesOf_unlines _ (newConfig_editable v hv).lines,
    C55_round_trip _ (newConfig_good v hv.good)]
  simp only
  rw [coresOf, lookup_cores, hn, normLines_single _ hs]
  simp only [joinChar, pyInt_natStr, poolSize]
  split
  · rw [max_eq_left (by omega)]
  · rw [max_eq_right (by omega)]

/-- **C75.** For a configuration with `n` cores the demo uses the given number of cores exactly if it is not one or the
configuration has no more than one core. -/
theorem C75_iff (k : Nat) (hk : 1 ≤ k) (n : Nat) (v : Arg → List Str) (hv : CoreArgs v) (hn : v .numCores = [natStr n]) :
    demoUses (some k) "analyse_photo".toList (unlines (writeIni (newConfig v))) = .ok (k : Int) ↔ k ≠ 1 ∨ n ≤ 1 := by
  by_cases h : k = 1
  · subst h
    rw [C75_one (some 1) (.inl rfl) n v hv hn]
    simp only [Except.ok.injEq, ne_eq, not_true_eq_false, false_or]
    omega
  · rw [C75_partial k (by omega) v hv]
    simp [h]

/-- The configuration of the demo, /repo/ledsa/demo/demo_setup.py 44-83; the values that are not given are left out. -/
def demoArgs : Arg → List Str
  | .imgDirectory => ["../image_data/".toList]
  | .imgNameString => ["V001_Cam01_{}.CR2".toList]
  | .numImgOverflow => ["9999".toList]
  | .numCores => ["4".toList]
  | .date => ["27.11.2018".toList]
  | .startTime => ["15:36:07".toList]
  | .edgeIndices => [[], "   457 246".toList, "    12 347".toList, "    578 671".toList, "   ".toList]
  | _ => ["None".toList]

theorem demoArgs_ok : CoreArgs demoArgs where
  good := by
    intro a
    have h : demoArgs a ≠ [] ∧ ∀ x ∈ (demoArgs a).tail, strip x = [] ∨ (isComment (strip x) = false ∧ 3 ≤ indentOf x) := by
      cases a <;> decide
    exact h
  lines := by intro a; cases a <;> decide
  single := ⟨_, rfl⟩
  word := by intro a; cases a <;> decide

/-- Refuted: the demo started with one core uses the four cores of its configuration. -/
theorem C75_false : demoUses (some 1) "analyse_photo".toList (unlines (writeIni (newConfig demoArgs))) = .ok 4 :=
  C75_one (some 1) (.inl rfl) 4 demoArgs demoArgs_ok rfl

/-- With eight cores it uses eight. -/
example : demoUses (some 8) "analyse_photo".toList (unlines (writeIni (newConfig demoArgs))) = .ok 8 :=
  C75_partial 8 (by decide) demoArgs demoArgs_ok

end Ledsa
