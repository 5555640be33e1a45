import Verif.Props.Config

/-! # C159: notation of options in configuration files -/

namespace Ledsa

/-- A line that gives option `name` the value `value`, indented by `k` characters, as a user may write it: `=` or `:`, with or
without blanks around it or at the end, the name in upper or lower case. -/
structure Handwritten (k : ℕ) (name value l : Str) : Prop where
  parts : ∃ (sp n b v : Str) (d : Char), l = sp ++ n ++ b ++ d :: v ∧ sp.length = k ∧ (∀ c ∈ sp, isWs c = true) ∧
    n ≠ [] ∧ (∀ c ∈ n, isWs c = false ∧ c ≠ '=' ∧ c ≠ ':') ∧ (n.head? ≠ some '#' ∧ n.head? ≠ some ';' ∧ n.head? ≠ some '[') ∧
    (∀ c ∈ b, isWs c = true) ∧ (d = '=' ∨ d = ':') ∧ lower n = name ∧ strip v = value

theorem Handwritten.name_ne {k : ℕ} {name value l : Str} (h : Handwritten k name value l) : name ≠ [] := by
  obtain ⟨sp, n, b, v, d, -, -, -, hn, -, -, -, -, rfl, -⟩ := h.parts
  unfold lower
  simpa using hn

theorem handwritten_strip {k : ℕ} {name value l : Str} (h : Handwritten k name value l) :
    isComment (strip l) = false ∧ strip l ≠ [] ∧ indentOf l = k ∧ sectionHeader (strip l) = none ∧
      optionLine (strip l) = (name, some value) := by
  obtain ⟨sp, n, b, v, d, rfl, rfl, hsp, hn, hch, hhd, hb, hd, rfl, rfl⟩ := h.parts
  obtain ⟨c, t, rfl⟩ := List.exists_cons_of_ne_nil hn
  have hc := (hch c (by simp)).1
  simp only [List.head?_cons, ne_eq, Option.some.injEq] at hhd
  have hdw : isWs d = false := by rcases hd with rfl | rfl <;> decide
  have hdd : isDelim d = true := by rcases hd with rfl | rfl <;> decide
  have hline : sp ++ c :: t ++ b ++ d :: v = sp ++ c :: (t ++ b ++ d :: v) := by simp
  have hds := dropWhile_spaces sp (t ++ b ++ d :: v) c hsp hc
  have ht : strip (sp ++ c :: t ++ b ++ d :: v) = (c :: t ++ b) ++ d :: rstrip v := by
    rw [hline, strip_eq, hds.1]
    have e2 : c :: (t ++ b ++ d :: v) = (c :: t ++ b) ++ d :: v := by simp
    rw [e2, rstrip_keep _ _ _ hdw]
  rw [ht]
  refine ⟨?_, ?_, ?_, ?_, ?_⟩
  · simp [isComment, hhd.1, hhd.2.1]
  · simp
  · rw [hline, indentOf, hds.2]
  · rw [List.cons_append, List.cons_append]
    unfold sectionHeader
    split
    · rename_i heq; exact absurd (List.cons.inj heq).1 hhd.2.2
    · rfl
  · have hsplit := delim_split (c :: t ++ b) (rstrip v) d (by
      intro x hx
      rcases List.mem_append.1 hx with hx | hx
      · have := (hch x hx).2
        simp [isDelim, this.1, this.2]
      · have := hb x hx
        by_contra hne
        simp only [isDelim, Bool.not_eq_false, Bool.or_eq_true, beq_iff_eq] at hne
        rcases hne with rfl | rfl <;> exact absurd this (by decide)) hdd
    unfold optionLine
    rw [hsplit.1, hsplit.2]
    simp only
    have hr : rstrip (c :: t ++ b) = c :: t := by
      rw [rstrip_ws _ _ hb]
      have := strip_eq_self (s := c :: t) (fun c hc => (hch c hc).1)
      rw [strip_eq, List.dropWhile_cons_of_neg (by simp [hc])] at this
      exact this
    rw [hr, strip_rstrip]

/-- Effect of an option line. -/
theorem readLine_hand {k : ℕ} {name value l : Str} (h : Handwritten k name value l) (st : IniState) (hk : st.hasOpt = true → k ≤ st.indent) :
    readLine st l = match st.secs with
      | [] => .error .configError
      | (s, items) :: rest => if name ∈ items.map (·.1) then .error .configError
          else .ok ⟨(s, (name, some [value]) :: items) :: rest, true, k⟩ := by
  obtain ⟨h1, h2, h3, h4, h5⟩ := handwritten_strip h
  unfold readLine
  simp only [h1, h3, h4, h5]
  rw [if_neg (by simp), if_neg h2, if_neg (by rintro ⟨a, b⟩; have := hk a; omega)]
  cases st.secs with
  | nil => rfl
  | cons p rest =>
    obtain ⟨s, items⟩ := p
    simp only [h.name_ne, false_or]
    split <;> rfl

/-- Lines that are the same, or give the same option the same value without indentation. -/
def SameMeaning (l l' : Str) : Prop := l = l' ∨ ∃ name value, Handwritten 0 name value l ∧ Handwritten 0 name value l'

/-- **C159.** How an option is written has no influence: `=` or `:`, blanks around it and at the end of the line, upper or lower case
of the name. -/
theorem C159_notation (a b : List Str) (h : List.Forall₂ SameMeaning a b) : readIni a = readIni b := by
  have key : ∀ st, readLines st a = readLines st b := by
    induction h with
    | nil => intro st; rfl
    | cons hl _ ih =>
      intro st
      rw [readLines, readLines]
      have : ∀ l l', SameMeaning l l' → readLine st l = readLine st l' := by
        rintro l l' (rfl | ⟨name, value, h1, h2⟩)
        · rfl
        · rw [readLine_hand h1 st (by simp), readLine_hand h2 st (by simp)]
      rw [this _ _ hl]
      cases readLine st _ with
      | ok st' => exact ih st'
      | error e => rfl
  unfold readIni
  rw [key]

theorem readLines_append (p q : List Str) : ∀ (st0 st : IniState), readLines st0 p = .ok st → readLines st0 (p ++ q) = readLines st q := by
  induction p with
  | nil => intro st0 st h; cases h; rfl
  | cons x p ih =>
    intro st0 st h
    rw [List.cons_append]
    rw [readLines] at h ⊢
    cases hx : readLine st0 x with
    | ok st' => rw [hx] at h; exact ih st' st h
    | error e => rw [hx] at h; cases h

/-- **C159.** An unindented option line in a section that does not have the option yet is read as this option with this value. -/
theorem C159_read (pre : List Str) (st : IniState) (hpre : readLines ⟨[], false, 0⟩ pre = .ok st) (s : Str) (items : List IniItem)
    (rest : List (Str × List IniItem)) (hs : st.secs = (s, items) :: rest) (name value l : Str) (hl : Handwritten 0 name value l)
    (hnew : name ∉ items.map (·.1)) :
    ∃ c its, readIni (pre ++ [l]) = .ok c ∧ (s, its) ∈ c ∧ (name, some [value]) ∈ its := by
  unfold readIni
  rw [readLines_append pre [l] _ st hpre, readLines, readLine_hand hl st (by simp), hs]
  simp only
  rw [if_neg hnew]
  simp only [readLines]
  refine ⟨_, (items.reverse.map fun i => (i.1, i.2.map joinLines)) ++ [(name, some (joinLines [value]))], rfl, ?_, ?_⟩
  · simp
  · have : joinLines [value] = [value] := by
      unfold joinLines
      by_cases hv : value = []
      · subst hv; rfl
      · rw [List.dropWhile_cons_of_neg (by simpa using hv)]; rfl
    rw [this]
    simp

/-- **C159 refuted** for indented options: an option that is indented further than the option before it (comments between them do not
matter) is not read as an option; its line becomes a further line of the value before it. -/
theorem C159_swallowed_false (pre : List Str) (st : IniState) (hpre : readLines ⟨[], false, 0⟩ pre = .ok st) (s : Str) (items : List IniItem)
    (rest : List (Str × List IniItem)) (hs : st.secs = (s, items) :: rest) (k0 k : ℕ) (hlt : k0 < k)
    (hk0 : st.hasOpt = true → k0 ≤ st.indent) (name0 value0 l0 name value l : Str) (h0 : Handwritten k0 name0 value0 l0)
    (hl : Handwritten k name value l) (hnew : name0 ∉ items.map (·.1)) (comments : List Str)
    (hc : ∀ x ∈ comments, isComment (strip x) = true) :
    readIni (pre ++ l0 :: comments ++ [l]) = .ok ((rest.reverse.map fun s => (s.1, s.2.reverse.map fun i => (i.1, i.2.map joinLines))) ++
      [(s, (items.reverse.map fun i => (i.1, i.2.map joinLines)) ++ [(name0, some [value0, strip l])])]) := by
  obtain ⟨g1, g2, g3, -, -⟩ := handwritten_strip hl
  have e1 : readLines st (l0 :: comments ++ [l]) = .ok ⟨(s, (name0, some [strip l, value0]) :: items) :: rest, true, k0⟩ := by
    rw [List.cons_append, readLines, readLine_hand h0 st hk0, hs]
    simp only
    rw [if_neg hnew]
    simp only
    have hcom : ∀ (cs : List Str) (st : IniState), (∀ x ∈ cs, isComment (strip x) = true) → readLines st cs = .ok st := by
      intro cs
      induction cs with
      | nil => intro _ _; rfl
      | cons x cs ih =>
        intro st h
        rw [readLines]
        have : readLine st x = .ok st := by
          unfold readLine
          rw [if_pos (h x (by simp))]
        rw [this]
        exact ih st (fun y hy => h y (by simp [hy]))
    rw [readLines_append comments [l] _ _ (hcom comments _ hc)]
    have : readLine ⟨(s, (name0, some [value0]) :: items) :: rest, true, k0⟩ l =
        .ok ⟨(s, (name0, some [strip l, value0]) :: items) :: rest, true, k0⟩ := by
      unfold readLine
      simp only [g1, g3]
      rw [if_neg (by simp), if_neg g2, if_pos ⟨trivial, hlt⟩]
      rfl
    rw [readLines, this]
    rfl
  unfold readIni
  rw [List.append_assoc, readLines_append pre _ _ st hpre, e1]
  simp only [List.reverse_cons, List.map_append, List.map_cons, List.map_nil]
  have : joinLines [strip l, value0] = [value0, strip l] := by
    unfold joinLines
    rw [List.dropWhile_cons_of_neg (by simpa using g2)]; rfl
  simp only [Option.map_some, this]

/-- **C159 refuted**, effect for the user: the option on the indented line does not exist. -/
theorem C159_lost_false (pre : List Str) (st : IniState) (hpre : readLines ⟨[], false, 0⟩ pre = .ok st) (s : Str) (items : List IniItem)
    (hs : st.secs = [(s, items)]) (k0 k : ℕ) (hlt : k0 < k)
    (hk0 : st.hasOpt = true → k0 ≤ st.indent) (name0 value0 l0 name value l : Str) (h0 : Handwritten k0 name0 value0 l0)
    (hl : Handwritten k name value l) (hnew : name0 ∉ items.map (·.1)) (hnew' : name ∉ items.map (·.1)) (hne : name ≠ name0) :
    ∃ c, readIni (pre ++ [l0, l]) = .ok c ∧ lookup c s name = none := by
  refine ⟨[(s, (items.reverse.map fun i => (i.1, i.2.map joinLines)) ++ [(name0, some [value0, strip l])])], ?_, ?_⟩
  · rw [show pre ++ [l0, l] = pre ++ l0 :: [] ++ [l] by simp]
    exact C159_swallowed_false pre st hpre s items [] hs k0 k hlt hk0 name0 value0 l0 name value l h0 hl hnew [] (by simp)
  have hf : ∀ i ∈ (items.reverse.map fun i => (i.1, i.2.map joinLines)) ++ [(name0, some [value0, strip l])], i.1 ≠ name := by
    intro i hi
    rcases List.mem_append.1 hi with hi | hi
    · obtain ⟨j, hj, rfl⟩ := List.mem_map.1 hi
      rintro rfl
      exact hnew' (List.mem_map.2 ⟨j, List.mem_reverse.1 hj, rfl⟩)
    · simp only [List.mem_singleton] at hi
      subst hi
      exact fun h => hne h.symm
  have hfind : ((items.reverse.map fun i => (i.1, i.2.map joinLines)) ++ [(name0, some [value0, strip l])]).find? (fun i => i.1 = name) = none := by
    rw [List.find?_eq_none]
    intro i hi
    simpa using hf i hi
  unfold lookup
  by_cases hd : s = "DEFAULT".toList
  · subst hd
    rw [List.filter_cons_of_pos (by simp)]
    simp only [List.filter_nil, List.flatMap_cons, List.flatMap_nil, List.append_nil]
    rw [hfind]
    rfl
  · rw [List.filter_cons_of_pos (by simp), List.filter_cons_of_neg (by simpa using hd)]
    simp only [List.filter_nil, List.flatMap_cons, List.flatMap_nil, List.append_nil]
    rw [hfind]
    rfl

/-- The same sections with the same options, in any order. -/
def SameOptions (c c' : Ini) : Prop := ∀ s items, (s, items) ∈ c → ∃ items', (s, items') ∈ c' ∧ items.Perm items'

/-- **C159.** The order of sections, and of options in a section, has no influence on any value. -/
theorem C159_order (c c' : Ini) (hn : (c.map (·.1)).Nodup) (hn' : (c'.map (·.1)).Nodup)
    (hi : ∀ s ∈ c, (s.2.map (·.1)).Nodup) (h : SameOptions c c') (h' : SameOptions c' c) (sec key : Str) : lookup c sec key = lookup c' sec key := by
  have sec_nil : ∀ (c : Ini) (s : Str), s ∉ c.map (·.1) → (c.filter fun x => x.1 = s) = [] := by
    intro c s hs
    rw [List.filter_eq_nil_iff]
    intro x hx
    simp only [decide_eq_true_eq]
    rintro rfl
    exact hs (List.mem_map.2 ⟨x, hx, rfl⟩)
  have find_perm : ∀ (a b : List IniItem), (a.map (·.1)).Nodup → a.Perm b → a.find? (fun i => i.1 = key) = b.find? fun i => i.1 = key := by
    intro a b ha hp
    have hb : (b.map (·.1)).Nodup := (hp.map _).nodup_iff.1 ha
    cases hfa : a.find? (fun i => i.1 = key) with
    | none =>
      symm
      rw [List.find?_eq_none] at hfa ⊢
      intro x hx
      exact hfa x (hp.mem_iff.2 hx)
    | some i =>
      have hk := List.find?_some hfa
      simp only [decide_eq_true_eq] at hk
      have hm := List.mem_of_find?_eq_some hfa
      obtain ⟨k, x⟩ := i
      simp only at hk
      subst hk
      rw [find_key hb (hp.mem_iff.1 hm)]
  have main : ∀ s, ((c.filter fun x => x.1 = s).flatMap (·.2)).find? (fun i => i.1 = key) =
      ((c'.filter fun x => x.1 = s).flatMap (·.2)).find? fun i => i.1 = key := by
    intro s
    by_cases hs : s ∈ c.map (·.1)
    · obtain ⟨⟨s', items⟩, hm, rfl⟩ := List.mem_map.1 hs
      obtain ⟨items', hm', hp⟩ := h _ _ hm
      simp only
      rw [section_items hn hm, section_items hn' hm']
      exact find_perm _ _ (hi _ hm) hp
    · have hs' : s ∉ c'.map (·.1) := by
        intro hx
        obtain ⟨⟨s', items⟩, hm, rfl⟩ := List.mem_map.1 hx
        obtain ⟨items', hm', -⟩ := h' _ _ hm
        exact hs (List.mem_map.2 ⟨_, hm', rfl⟩)
      rw [sec_nil c s hs, sec_nil c' s hs']
  unfold lookup
  rw [main sec, main "DEFAULT".toList]

/-- Three notations. -/
example : ["Channel=2", "channel :  2 ", "CHANNEL = 2"].map (fun l =>
      (readIni ["[a]".toList, l.toList]).toOption.map fun c => lookup c "a".toList "channel".toList) =
    List.replicate 3 (some (some (some ["2".toList]))) := by decide +kernel

example : Handwritten 0 "channel".toList "2".toList "Channel : 2 ".toList :=
  ⟨[], "Channel".toList, " ".toList, " 2 ".toList, ':', by decide, rfl, by decide, by decide, by decide, by decide, by decide, by decide,
    by decide, by decide⟩

/-- A user shortens the indentation of one line of a new file: the next option is gone. -/
example : (readIni ["[a]".toList, "channel = 2".toList, "   # radius in pixels".toList, "   search_area_radius = 10".toList]).toOption.map
      (fun c => (lookup c "a".toList "channel".toList, lookup c "a".toList "search_area_radius".toList)) =
    some (some (some ["2".toList, "search_area_radius = 10".toList]), none) := by decide +kernel

end Ledsa
