import Verif.Model.Ini
import Mathlib.Tactic.Linarith
/-
C55, C58: configuration files and table valued options.
-/
namespace Ledsa

/-! ### Text -/

theorem rstrip_keep (a b : Str) (c : Char) (hc : isWs c = false) : rstrip (a ++ c :: b) = a ++ c :: rstrip b := by
  have h : ∀ r : Str, (r ++ c :: a.reverse).dropWhile isWs = r.dropWhile isWs ++ c :: a.reverse := by
    intro r
    induction r with
    | nil => rw [List.nil_append, List.dropWhile_cons_of_neg (by simp [hc])]; rfl
    | cons x r ih =>
      rw [List.cons_append]
      cases hx : isWs x with
      | true => rw [List.dropWhile_cons_of_pos hx, List.dropWhile_cons_of_pos hx, ih]
      | false => rw [List.dropWhile_cons_of_neg (by simp [hx]), List.dropWhile_cons_of_neg (by simp [hx])]; rfl
  unfold rstrip
  have e : (a ++ c :: b).reverse = b.reverse ++ c :: a.reverse := by simp
  rw [e, h]
  simp

theorem strip_eq (s : Str) : strip s = rstrip (s.dropWhile isWs) := rfl

theorem strip_cons_ws (c : Char) (s : Str) (h : isWs c = true) : strip (c :: s) = strip s := by
  rw [strip_eq, strip_eq, List.dropWhile_cons_of_pos h]

theorem rstrip_ws (s w : Str) (h : ∀ c ∈ w, isWs c = true) : rstrip (s ++ w) = rstrip s := by
  unfold rstrip
  congr 1
  rw [List.reverse_append]
  have : ∀ w : Str, (∀ c ∈ w, isWs c = true) → ∀ t : Str, (w ++ t).dropWhile isWs = t.dropWhile isWs := by
    intro w
    induction w with
    | nil => intro _ t; rfl
    | cons x w ih =>
      intro h t
      rw [List.cons_append, List.dropWhile_cons_of_pos (h x (by simp)), ih (fun c hc => h c (by simp [hc]))]
  exact this _ (fun c hc => h c (List.mem_reverse.1 hc)) _

theorem rstrip_split (s : Str) : ∃ w : Str, (∀ c ∈ w, isWs c = true) ∧ s = rstrip s ++ w := by
  refine ⟨(s.reverse.takeWhile isWs).reverse, ?_, ?_⟩
  · intro c hc
    exact List.all_eq_true.1 List.all_takeWhile c (List.mem_reverse.1 hc)
  · unfold rstrip
    rw [← List.reverse_append, List.takeWhile_append_dropWhile, List.reverse_reverse]

theorem rstrip_nil_iff (s : Str) : rstrip s = [] ↔ ∀ c ∈ s, isWs c = true := by
  constructor
  · intro h
    obtain ⟨w, hw, e⟩ := rstrip_split s
    rw [h, List.nil_append] at e
    rw [e]; exact hw
  · intro h
    have := rstrip_ws [] s h
    simpa [rstrip] using this

theorem rstrip_idem (s : Str) : rstrip (rstrip s) = rstrip s := by
  obtain ⟨w, hw, e⟩ := rstrip_split s
  have := rstrip_ws (rstrip s) w hw
  rw [← e] at this
  exact this.symm

theorem dropWhile_head (s : Str) : s.dropWhile isWs = [] ∨ ∃ c t, s.dropWhile isWs = c :: t ∧ isWs c = false := by
  induction s with
  | nil => left; rfl
  | cons x s ih =>
    cases hx : isWs x with
    | true => rw [List.dropWhile_cons_of_pos hx]; exact ih
    | false => right; exact ⟨x, s, by rw [List.dropWhile_cons_of_neg (by simp [hx])], hx⟩

/-- Shape of stripped text. -/
theorem strip_shape (s : Str) : strip s = [] ∨ ∃ c t, strip s = c :: t ∧ isWs c = false ∧ rstrip (c :: t) = c :: t := by
  rw [strip_eq]
  rcases dropWhile_head s with h | ⟨c, t, h, hc⟩
  · left; rw [h]; rfl
  · right
    rw [h]
    have := rstrip_keep [] t c hc
    rw [List.nil_append, List.nil_append] at this
    refine ⟨c, rstrip t, this, hc, ?_⟩
    rw [← this, rstrip_idem]

theorem strip_idem (s : Str) : strip (strip s) = strip s := by
  rcases strip_shape s with h | ⟨c, t, h, hc, hr⟩
  · rw [h]; rfl
  · rw [h, strip_eq, List.dropWhile_cons_of_neg (by simp [hc]), hr]

theorem strip_rstrip (s : Str) : strip (rstrip s) = strip s := by
  by_cases h : ∀ c ∈ s, isWs c = true
  · have h1 := (rstrip_nil_iff s).2 h
    rw [h1, strip_eq s]
    have : s.dropWhile isWs = [] := by
      rcases dropWhile_head s with h2 | ⟨c, t, h2, hc⟩
      · exact h2
      · have : c ∈ s := (List.dropWhile_suffix isWs).subset (by rw [h2]; simp)
        rw [h c this] at hc; cases hc
    rw [this]; rfl
  · obtain ⟨w, hw, e⟩ := rstrip_split s
    have hne : ∃ c ∈ rstrip s, isWs c = false := by
      by_contra hc
      apply h
      intro c hm
      rw [e] at hm
      rcases List.mem_append.1 hm with hm | hm
      · cases hx : isWs c with
        | true => rfl
        | false => exact absurd ⟨c, hm, hx⟩ hc
      · exact hw c hm
    have hd : ∀ r : Str, (∃ c ∈ r, isWs c = false) → (r ++ w).dropWhile isWs = r.dropWhile isWs ++ w := by
      intro r
      induction r with
      | nil => rintro ⟨c, hc, _⟩; simp at hc
      | cons x r ih =>
        intro hr
        rw [List.cons_append]
        cases hx : isWs x with
        | true =>
          rw [List.dropWhile_cons_of_pos hx, List.dropWhile_cons_of_pos hx, ih]
          obtain ⟨c, hc, h2⟩ := hr
          rcases List.mem_cons.1 hc with rfl | hc
          · rw [hx] at h2; cases h2
          · exact ⟨c, hc, h2⟩
        | false => rw [List.dropWhile_cons_of_neg (by simp [hx]), List.dropWhile_cons_of_neg (by simp [hx])]; rfl
    rw [strip_eq s]
    conv_rhs => rw [e, hd _ hne, rstrip_ws _ _ hw]
    rfl

/-! ### Files written by the program -/

/-- Names of options. -/
structure GoodName (n : Str) : Prop where
  ne : n ≠ []
  chars : ∀ c ∈ n, isWs c = false ∧ isDelim c = false
  head : n.head? ≠ some '#' ∧ n.head? ≠ some ';' ∧ n.head? ≠ some '['
  low : lower n = n

/-- A continuation line that is read back: blank, or no comment and deeper than `w` with the tab in front. -/
def ContLine (w : Nat) (x : Str) : Prop := strip x = [] ∨ (isComment (strip x) = false ∧ w ≤ indentOf x)

/-- Items of a section whose options are indented by `w`. -/
inductive GoodItem (w : Nat) : IniItem → Prop
  | comment (k : Str) (h : isComment (strip k) = true ∨ strip k = []) : GoodItem w (k, none)
  | option (sp n l : Str) (ls : List Str) (hsp : ∀ c ∈ sp, isWs c = true) (hw : sp.length = w) (hn : GoodName n)
      (hl : ∀ x ∈ ls, ContLine w x) : GoodItem w (sp ++ n, some (l :: ls))

/-- A value without white space around its lines and without empty lines at its end. -/
def normLines (ls : List Str) : List Str := joinLines (ls.map strip).reverse

/-- What is left of an item after loading: comments are gone, names lose their indentation. -/
def loadItem : IniItem → List IniItem
  | (_, none) => []
  | (k, some ls) => [(strip k, some (normLines ls))]

/-- A configuration after loading. -/
def loaded (c : Ini) : Ini := c.map fun s => (s.1, s.2.flatMap loadItem)

/-- Configurations as the program writes them. -/
structure GoodIni (c : Ini) : Prop where
  names : (c.map (·.1)).Nodup
  header : ∀ s ∈ c, s.1 ≠ []
  items : ∀ s ∈ c, ∃ w, ∀ i ∈ s.2, GoodItem w i
  options : ∀ s ∈ c, ((s.2.flatMap loadItem).map (·.1)).Nodup

theorem GoodName.cons {n : Str} (h : GoodName n) : ∃ c t, n = c :: t ∧ isWs c = false ∧ c ≠ '#' ∧ c ≠ ';' ∧ c ≠ '[' := by
  cases n with
  | nil => exact absurd rfl h.ne
  | cons c t =>
    have := h.head
    simp only [List.head?_cons, ne_eq, Option.some.injEq] at this
    exact ⟨c, t, rfl, (h.chars c (by simp)).1, this.1, this.2.1, this.2.2⟩

theorem dropWhile_spaces (sp t : Str) (c : Char) (hsp : ∀ c ∈ sp, isWs c = true) (hc : isWs c = false) :
    (sp ++ c :: t).dropWhile isWs = c :: t ∧ (sp ++ c :: t).takeWhile isWs = sp := by
  induction sp with
  | nil => simp [hc]
  | cons x sp ih =>
    have := ih (fun c hc => hsp c (by simp [hc]))
    have hx := hsp x (by simp)
    simp [hx, this]

theorem strip_key {sp n : Str} (hsp : ∀ c ∈ sp, isWs c = true) (hn : GoodName n) : strip (sp ++ n) = n := by
  obtain ⟨c, t, rfl, hc, -⟩ := hn.cons
  rw [strip_eq, (dropWhile_spaces sp t c hsp hc).1, ← strip_eq_self (fun c hc => (hn.chars c hc).1), strip_eq,
    List.dropWhile_cons_of_neg (by simp [hc]), rstrip_idem]

theorem delim_split (n r : Str) (c : Char) (hn : ∀ x ∈ n, isDelim x = false) (hc : isDelim c = true) :
    (n ++ c :: r).dropWhile (fun c => !isDelim c) = c :: r ∧ (n ++ c :: r).takeWhile (fun c => !isDelim c) = n := by
  induction n with
  | nil => simp [hc]
  | cons x n ih =>
    have := ih (fun c hc => hn c (by simp [hc]))
    have hx := hn x (by simp)
    simp [hx, this]

/-- The line with name and first line of the value. -/
theorem readLine_key {sp n : Str} (l : Str) (hsp : ∀ c ∈ sp, isWs c = true) (hn : GoodName n) (s : Str)
    (its : List IniItem) (rest : List (Str × List IniItem)) (b : Bool) (ind : Nat)
    (hind : b = true → sp.length ≤ ind) (hnew : n ∉ its.map (·.1)) :
    readLine ⟨(s, its) :: rest, b, ind⟩ (sp ++ n ++ " = ".toList ++ l) =
      .ok ⟨(s, (n, some [strip l]) :: its) :: rest, true, sp.length⟩ := by
  obtain ⟨c, t, e, hc, h1, h2, h3⟩ := hn.cons
  have eq : " = ".toList = [' ', '=', ' '] := by decide
  have hline : sp ++ n ++ " = ".toList ++ l = sp ++ c :: (t ++ [' ', '=', ' '] ++ l) := by rw [eq, e]; simp
  have hd := dropWhile_spaces sp (t ++ [' ', '=', ' '] ++ l) c hsp hc
  have ht : strip (sp ++ n ++ " = ".toList ++ l) = (n ++ [' ']) ++ '=' :: rstrip (' ' :: l) := by
    rw [hline, strip_eq, hd.1]
    have e2 : c :: (t ++ [' ', '=', ' '] ++ l) = (n ++ [' ']) ++ '=' :: (' ' :: l) := by rw [e]; simp
    rw [e2, rstrip_keep _ _ _ (by decide)]
  have hi : indentOf (sp ++ n ++ " = ".toList ++ l) = sp.length := by rw [hline, indentOf, hd.2]
  have ho : optionLine ((n ++ [' ']) ++ '=' :: rstrip (' ' :: l)) = (n, some (strip l)) := by
    have hds := delim_split (n ++ [' ']) (rstrip (' ' :: l)) '=' (by
      intro x hx
      rcases List.mem_append.1 hx with hx | hx
      · exact (hn.chars x hx).2
      · simp only [List.mem_singleton] at hx; subst hx; decide) (by decide)
    unfold optionLine
    rw [hds.1, hds.2]
    simp only
    have hr : rstrip (n ++ [' ']) = n := by
      rw [rstrip_ws _ _ (by decide)]
      have := strip_eq_self (fun c hc => (hn.chars c hc).1)
      rw [strip_eq, e, List.dropWhile_cons_of_neg (by simp [hc]), ← e] at this
      exact this
    rw [hr, hn.low, strip_rstrip, strip_cons_ws _ _ (by decide)]
  unfold readLine
  simp only [ht, hi]
  have hcm : isComment ((n ++ [' ']) ++ '=' :: rstrip (' ' :: l)) = false := by
    rw [e]; simp [isComment, h1, h2]
  have hsec : sectionHeader ((n ++ [' ']) ++ '=' :: rstrip (' ' :: l)) = none := by
    rw [e, List.cons_append, List.cons_append]
    unfold sectionHeader
    split
    · rename_i heq; exact absurd (List.cons.inj heq).1 h3
    · rfl
  rw [hcm, hsec, ho]
  simp only [Bool.false_eq_true, if_false]
  rw [if_neg (by simp), if_neg]
  · rw [if_neg]
    · rfl
    · rintro (h | h)
      · exact hn.ne h
      · exact hnew h
  · rintro ⟨hb, hlt⟩
    have := hind hb
    omega

/-- A continuation line. -/
theorem readLine_cont (x : Str) (w : Nat) (hx : ContLine w x) (s n : Str) (acc : List Str) (its : List IniItem)
    (rest : List (Str × List IniItem)) :
    readLine ⟨(s, (n, some acc) :: its) :: rest, true, w⟩ ('\t' :: x) =
      .ok ⟨(s, (n, some (strip x :: acc)) :: its) :: rest, true, w⟩ := by
  have hs : strip ('\t' :: x) = strip x := strip_cons_ws _ _ (by decide)
  unfold readLine
  simp only [hs]
  rcases hx with h | ⟨h1, h2⟩
  · rw [h]
    simp [isComment]
  · rw [h1]
    simp only [Bool.false_eq_true, if_false]
    by_cases h0 : strip x = []
    · rw [h0]; simp
    · rw [if_neg h0, if_pos]
      · rfl
      · refine ⟨trivial, ?_⟩
        have : indentOf ('\t' :: x) = indentOf x + 1 := by
          unfold indentOf
          rw [List.takeWhile_cons_of_pos (by decide)]; rfl
        rw [this]; omega

theorem readLines_cont (w : Nat) (s n : Str) (its : List IniItem) (rest : List (Str × List IniItem)) (tail : List Str) :
    ∀ (ls acc : List Str), (∀ x ∈ ls, ContLine w x) →
    readLines ⟨(s, (n, some acc) :: its) :: rest, true, w⟩ (ls.map ('\t' :: ·) ++ tail) =
      readLines ⟨(s, (n, some ((ls.map strip).reverse ++ acc)) :: its) :: rest, true, w⟩ tail
  | [], acc, _ => by simp
  | x :: ls, acc, h => by
    rw [List.map_cons, List.cons_append, readLines, readLine_cont x w (h x (by simp))]
    simp only
    rw [readLines_cont w s n its rest tail ls _ (fun y hy => h y (by simp [hy]))]
    simp

/-- Items of a section in memory and as read so far (reversed). -/
def Reads (its : List IniItem) (res : List IniItem) : Prop := its.reverse.map (fun i => (i.1, i.2.map joinLines)) = res

theorem joinLines_blank (ls : List Str) : joinLines ([] :: ls) = joinLines ls := by
  unfold joinLines
  rw [List.dropWhile_cons_of_pos (by simp)]

/-- A blank line or a comment line changes nothing that matters. -/
theorem readLine_blank (k : Str) (h : isComment (strip k) = true ∨ strip k = []) (s : Str) (its res : List IniItem)
    (rest : List (Str × List IniItem)) (b : Bool) (ind : Nat) (hr : Reads its res) :
    ∃ its', readLine ⟨(s, its) :: rest, b, ind⟩ k = .ok ⟨(s, its') :: rest, b, ind⟩ ∧ Reads its' res ∧
      its'.map (·.1) = its.map (·.1) := by
  unfold readLine
  simp only
  by_cases hc : isComment (strip k) = true
  · rw [if_pos hc]; exact ⟨its, rfl, hr, rfl⟩
  · have h0 : strip k = [] := h.resolve_left hc
    rw [if_neg hc, if_pos h0]
    cases b with
    | false => exact ⟨its, rfl, hr, rfl⟩
    | true =>
      match its, hr with
      | [], hr => exact ⟨[], rfl, hr, rfl⟩
      | (n, none) :: t, hr => exact ⟨_, rfl, hr, rfl⟩
      | (n, some ls) :: t, hr =>
        refine ⟨(n, some ([] :: ls)) :: t, rfl, ?_, rfl⟩
        unfold Reads at hr ⊢
        rw [← hr]
        simp [joinLines_blank]

/-- All items of a section. -/
theorem readLines_items (w : Nat) (s : Str) (rest : List (Str × List IniItem)) (tail : List Str) :
    ∀ (items its res : List IniItem) (b : Bool) (ind : Nat), (b = true → w ≤ ind) → (∀ i ∈ items, GoodItem w i) →
    Reads its res → ((its.map (·.1)).reverse ++ (items.flatMap loadItem).map (·.1)).Nodup →
    ∃ its' b' ind', readLines ⟨(s, its) :: rest, b, ind⟩ (items.flatMap writeItem ++ tail) =
      readLines ⟨(s, its') :: rest, b', ind'⟩ tail ∧ Reads its' (res ++ items.flatMap loadItem) := by
  intro items
  induction items with
  | nil =>
    intro its res b ind _ _ hr _
    exact ⟨its, b, ind, rfl, by simpa using hr⟩
  | cons i items ih =>
    intro its res b ind hind hg hr hnd
    have hg' := fun j hj => hg j (List.mem_cons_of_mem _ hj)
    rw [List.flatMap_cons, List.flatMap_cons, List.append_assoc]
    cases hg i (by simp) with
    | comment k h =>
      obtain ⟨its', h1, h2, h3⟩ := readLine_blank k h s its res rest b ind hr
      rw [writeItem, List.cons_append, List.nil_append, readLines, h1]
      simp only [loadItem, List.nil_append]
      apply ih its' res b ind hind hg' h2
      rw [h3]
      simpa [loadItem] using hnd
    | option sp n l ls hsp hw hn hl =>
      have hk := strip_key hsp hn
      have hnew : n ∉ its.map (·.1) := by
        intro hm
        rw [List.flatMap_cons, List.map_append, loadItem, hk] at hnd
        have := (List.nodup_append.1 hnd).2.2 n (List.mem_reverse.2 hm) n (by simp)
        exact this rfl
      rw [writeItem, List.cons_append, readLines,
        readLine_key l hsp hn s its rest b ind (by rw [hw]; exact hind) hnew]
      simp only
      rw [hw, readLines_cont w s n its rest _ ls [strip l] hl]
      rw [show res ++ (loadItem (sp ++ n, some (l :: ls)) ++ items.flatMap loadItem) =
        (res ++ [(n, some (normLines (l :: ls)))]) ++ items.flatMap loadItem by simp [loadItem, hk]]
      apply ih _ _ true w (fun _ => Nat.le_refl w) hg'
      · unfold Reads at hr ⊢
        rw [← hr]
        simp [normLines]
      · rw [List.flatMap_cons, List.map_append, loadItem, hk] at hnd
        simpa using hnd

theorem sectionHeader_line (h : Str) (hne : h ≠ []) : strip ('[' :: h ++ [']']) = '[' :: h ++ [']'] ∧
    sectionHeader ('[' :: h ++ [']']) = some h ∧ indentOf ('[' :: h ++ [']']) = 0 := by
  refine ⟨?_, ?_, ?_⟩
  · rw [strip_eq, List.cons_append, List.dropWhile_cons_of_neg (by decide)]
    have := rstrip_keep ('[' :: h) [] ']' (by decide)
    simpa [rstrip] using this
  · unfold sectionHeader
    simp only [List.cons_append, List.reverse_append, List.reverse_singleton, List.nil_append]
    rw [List.dropWhile_cons_of_neg (by simp)]
    simp [hne]
  · unfold indentOf
    rw [List.cons_append, List.takeWhile_cons_of_neg (by decide)]; rfl

theorem readLines_sections : ∀ (c : Ini) (done : List (Str × List IniItem)) (b : Bool) (ind : Nat),
    (∀ s ∈ c, s.1 ≠ [] ∧ (∃ w, ∀ i ∈ s.2, GoodItem w i) ∧ ((s.2.flatMap loadItem).map (·.1)).Nodup) →
    ((done.map (·.1)).reverse ++ c.map (·.1)).Nodup →
    ∃ st, readLines ⟨done, b, ind⟩ (writeIni c) = .ok st ∧
      st.secs.reverse.map (fun s => (s.1, s.2.reverse.map fun i => (i.1, i.2.map joinLines))) =
        done.reverse.map (fun s => (s.1, s.2.reverse.map fun i => (i.1, i.2.map joinLines))) ++ loaded c := by
  intro c
  induction c with
  | nil => intro done b ind _ _; exact ⟨_, rfl, by simp [loaded]⟩
  | cons s c ih =>
    intro done b ind hg hnd
    obtain ⟨hne, ⟨w, hw⟩, ho⟩ := hg s (by simp)
    obtain ⟨h1, h2, h3⟩ := sectionHeader_line s.1 hne
    have hnew : s.1 ∉ done.map (·.1) := by
      intro hm
      exact (List.nodup_append.1 hnd).2.2 s.1 (List.mem_reverse.2 hm) s.1 (by simp) rfl
    have hline : readLine ⟨done, b, ind⟩ ('[' :: s.1 ++ [']']) = .ok ⟨(s.1, []) :: done, false, 0⟩ := by
      unfold readLine
      simp only [h1, h2, h3]
      have hcm : isComment ('[' :: s.1 ++ [']']) = false := by simp [isComment]
      rw [hcm, if_neg (by simp), if_neg (by simp), if_neg (by simp), if_neg hnew]
    have hw' : writeIni (s :: c) = ('[' :: s.1 ++ [']']) :: (s.2.flatMap writeItem ++ ([] :: writeIni c)) := by
      simp [writeIni, writeSection]
    rw [hw', readLines, hline]
    simp only
    obtain ⟨its, b', ind', e1, e2⟩ := readLines_items w s.1 done ([] :: writeIni c) s.2 [] [] false 0 (by simp) hw rfl
      (by simpa using ho)
    rw [e1]
    obtain ⟨its2, e3, e4, -⟩ := readLine_blank [] (.inr rfl) s.1 its _ done b' ind' e2
    rw [readLines, e3]
    simp only
    obtain ⟨st, f1, f2⟩ := ih ((s.1, its2) :: done) b' ind' (fun t ht => hg t (List.mem_cons_of_mem _ ht))
      (by simpa using hnd)
    refine ⟨st, f1, ?_⟩
    rw [f2]
    unfold Reads at e4
    rw [List.map_reverse, List.nil_append] at e4
    simp [loaded, e4]

/-- **C55.** Loading a saved configuration gives back every option under its name, with the value as given except for white
space around its lines and empty lines at its end. -/
theorem C55_round_trip (c : Ini) (h : GoodIni c) : readIni (writeIni c) = .ok (loaded c) := by
  obtain ⟨st, h1, h2⟩ := readLines_sections c [] false 0 (fun s hs => ⟨h.header s hs, h.items s hs, h.options s hs⟩)
    (by simpa using h.names)
  unfold readIni
  rw [h1]
  simp only [h2]
  simp

theorem joinLines_reverse (r : List Str) : joinLines (joinLines r).reverse = joinLines r := by
  unfold joinLines
  cases hd : r.dropWhile (· = []) with
  | nil => rfl
  | cons x t =>
    simp only [List.reverse_reverse]
    have hx : ¬ x = [] := by
      have := List.head?_dropWhile_not (p := fun l : Str => decide (l = [])) (l := r)
      rw [hd] at this
      simpa using this
    rw [List.dropWhile_cons_of_neg (by simpa using hx)]

theorem normLines_mem (ls : List Str) (x : Str) (h : x ∈ normLines ls) : x = [] ∨ ∃ y ∈ ls, x = strip y := by
  unfold normLines joinLines at h
  split at h
  · left; simpa using h
  · right
    have hs : x ∈ (ls.map strip).reverse := by
      have h' := List.mem_reverse.1 h
      exact (List.dropWhile_suffix _).subset h'
    obtain ⟨y, hy, rfl⟩ := List.mem_map.1 (List.mem_reverse.1 hs)
    exact ⟨y, hy, rfl⟩

theorem normLines_idem (ls : List Str) : normLines (normLines ls) = normLines ls := by
  have h : (normLines ls).map strip = normLines ls := by
    conv_rhs => rw [← List.map_id (normLines ls)]
    apply List.map_congr_left
    intro x hx
    rcases normLines_mem ls x hx with rfl | ⟨y, _, rfl⟩
    · rfl
    · exact strip_idem y
  rw [normLines, h]
  exact joinLines_reverse _

theorem normLines_ne (ls : List Str) : normLines ls ≠ [] := by
  unfold normLines joinLines
  split
  · simp
  · rename_i h1; simpa using h1

theorem loadItem_loadItem (i : IniItem) : (loadItem i).flatMap loadItem = loadItem i := by
  obtain ⟨k, v⟩ := i
  cases v with
  | none => rfl
  | some ls => simp [loadItem, strip_idem, normLines_idem]

theorem loaded_idem (c : Ini) : loaded (loaded c) = loaded c := by
  unfold loaded
  rw [List.map_map]
  apply List.map_congr_left
  intro s _
  simp only [Function.comp, List.flatMap_assoc, loadItem_loadItem]

/-- The lines after the first of a normalised value are no comments, if those of the value were not. -/
theorem normLines_tail (w : Nat) (l : Str) (ls : List Str) (h : ∀ x ∈ ls, ContLine w x) :
    ∀ x ∈ (normLines (l :: ls)).tail, ContLine 0 x := by
  have hp : ∃ k, normLines (l :: ls) = ((l :: ls).map strip).take k ∨ normLines (l :: ls) = [[]] := by
    unfold normLines joinLines
    split
    · exact ⟨0, .inr rfl⟩
    · obtain ⟨p, hp⟩ := List.dropWhile_suffix (l := ((l :: ls).map strip).reverse) (fun x : Str => decide (x = []))
      have := congrArg List.reverse hp
      rw [List.reverse_append, List.reverse_reverse] at this
      exact ⟨_, .inl (List.prefix_iff_eq_take.1 ⟨_, this⟩)⟩
  obtain ⟨k, hk | hk⟩ := hp
  · intro x hx
    rw [hk] at hx
    cases k with
    | zero => simp at hx
    | succ k =>
      rw [List.map_cons, List.take_succ_cons, List.tail_cons] at hx
      obtain ⟨y, hy, rfl⟩ := List.mem_map.1 (List.mem_of_mem_take hx)
      rcases h y hy with h0 | ⟨h1, _⟩
      · left; rw [h0]; rfl
      · right; rw [strip_idem]; exact ⟨h1, Nat.zero_le _⟩
  · rw [hk]; intro x hx; simp at hx

theorem loaded_good (c : Ini) (h : GoodIni c) : GoodIni (loaded c) where
  names := by simpa [loaded, List.map_map, Function.comp_def] using h.names
  header := by
    intro s hs
    obtain ⟨t, ht, rfl⟩ := List.mem_map.1 hs
    exact h.header t ht
  items := by
    intro s hs
    obtain ⟨t, ht, rfl⟩ := List.mem_map.1 hs
    obtain ⟨w, hw⟩ := h.items t ht
    refine ⟨0, ?_⟩
    intro i hi
    obtain ⟨j, hj, hi⟩ := List.mem_flatMap.1 hi
    cases hw j hj with
    | comment k _ => simp [loadItem] at hi
    | option sp n l ls hsp hwl hn hl =>
      simp only [loadItem, List.mem_singleton] at hi
      rw [hi, strip_key hsp hn]
      obtain ⟨l', ls', e⟩ := List.exists_cons_of_ne_nil (normLines_ne (l :: ls))
      have ht := normLines_tail w l ls hl
      rw [e] at ht ⊢
      exact GoodItem.option [] n l' ls' (by simp) rfl hn ht
  options := by
    intro s hs
    obtain ⟨t, ht, rfl⟩ := List.mem_map.1 hs
    have : (t.2.flatMap loadItem).flatMap loadItem = t.2.flatMap loadItem := by
      rw [List.flatMap_assoc]
      simp only [loadItem_loadItem]
    simp only [this]
    exact h.options t ht

/-- **C55.** Saving a loaded configuration and loading it again changes nothing. -/
theorem C55_reload (c : Ini) (h : GoodIni c) : readIni (writeIni (loaded c)) = .ok (loaded c) := by
  rw [C55_round_trip _ (loaded_good c h), loaded_idem]

/-! ### C55: the options of a new configuration -/

/-- Names of options, decidable. -/
def goodNameB (n : Str) : Bool :=
  n ≠ [] && n.all (fun c => !isWs c && !isDelim c) && n.head? ≠ some '#' && n.head? ≠ some ';' && n.head? ≠ some '[' &&
    lower n = n

theorem goodNameB_spec {n : Str} (h : goodNameB n = true) : GoodName n := by
  simp only [goodNameB, Bool.and_eq_true, decide_eq_true_eq, List.all_eq_true, Bool.not_eq_true'] at h
  obtain ⟨⟨⟨⟨⟨h1, h2⟩, h3⟩, h4⟩, h5⟩, h6⟩ := h
  exact ⟨h1, h2, ⟨h3, h4, h5⟩, h6⟩

/-- Entries of the template, decidable. -/
def goodEntryB (i : Str × Option Arg) : Bool :=
  match i.2 with
  | none => isComment (strip i.1) || strip i.1 = []
  | some _ => (i.1.take 3).all isWs && decide (3 ≤ i.1.length) && goodNameB (i.1.drop 3)

/-- Values for a new configuration that survive: continuation lines are blank or indented by three characters or more. -/
def GoodArgs (v : Arg → List Str) : Prop := ∀ a, v a ≠ [] ∧ ∀ x ∈ (v a).tail, ContLine 3 x

theorem goodEntryB_spec (v : Arg → List Str) (hv : GoodArgs v) (i : Str × Option Arg) (h : goodEntryB i = true) :
    GoodItem 3 (i.1, i.2.map v) := by
  obtain ⟨k, _ | a⟩ := i
  · simp only [goodEntryB, Bool.or_eq_true, decide_eq_true_eq] at h
    exact GoodItem.comment k h
  · simp only [goodEntryB, Bool.and_eq_true, decide_eq_true_eq, List.all_eq_true] at h
    obtain ⟨l, ls, e⟩ := List.exists_cons_of_ne_nil (hv a).1
    have hc := (hv a).2
    rw [e] at hc
    have := GoodItem.option (w := 3) (k.take 3) (k.drop 3) l ls h.1.1 (by simp; exact h.1.2) (goodNameB_spec h.2) hc
    rw [List.take_append_drop] at this
    simpa [e] using this

/-- Names of the options after loading. -/
def optionNames {α : Type} (items : List (Str × Option α)) : List Str := items.filterMap fun i => i.2.map fun _ => strip i.1

theorem optionNames_eq (items : List IniItem) : (items.flatMap loadItem).map (·.1) = optionNames items := by
  unfold optionNames
  induction items with
  | nil => rfl
  | cons i items ih =>
    obtain ⟨k, _ | ls⟩ := i <;> simp [loadItem, ih]

theorem newConfig_good (v : Arg → List Str) (hv : GoodArgs v) : GoodIni (newConfig v) where
  names := by
    have : (newConfig v).map (·.1) = newEntries.map (·.1) := by simp [newConfig, Function.comp_def]
    rw [this]
    decide +kernel
  header := by
    intro s hs
    obtain ⟨t, ht, rfl⟩ := List.mem_map.1 hs
    have : ∀ t ∈ newEntries, t.1 ≠ [] := by decide +kernel
    exact this t ht
  items := by
    intro s hs
    obtain ⟨t, ht, rfl⟩ := List.mem_map.1 hs
    have : ∀ t ∈ newEntries, ∀ i ∈ t.2, goodEntryB i = true := by decide +kernel
    refine ⟨3, ?_⟩
    intro i hi
    obtain ⟨j, hj, rfl⟩ := List.mem_map.1 hi
    exact goodEntryB_spec v hv j (this t ht j hj)
  options := by
    intro s hs
    obtain ⟨t, ht, rfl⟩ := List.mem_map.1 hs
    have : ∀ t ∈ newEntries, (optionNames t.2).Nodup := by decide +kernel
    have h := this t ht
    rw [optionNames_eq]
    have e : optionNames (t.2.map fun i => (i.1, i.2.map v)) = optionNames t.2 := by
      simp [optionNames, List.filterMap_map, Function.comp_def]
    rw [e]
    exact h

/-- The documented place of every option. -/
def docName : Arg → Str × Str
  | .imgDirectory => ("DEFAULT".toList, "img_directory".toList)
  | .imgNameString => ("DEFAULT".toList, "img_name_string".toList)
  | .numImgOverflow => ("DEFAULT".toList, "num_img_overflow".toList)
  | .firstImgExperimentId => ("DEFAULT".toList, "first_img_experiment_id".toList)
  | .lastImgExperimentId => ("DEFAULT".toList, "last_img_experiment_id".toList)
  | .numCores => ("DEFAULT".toList, "num_cores".toList)
  | .date => ("DEFAULT".toList, "date".toList)
  | .startTime => ("DEFAULT".toList, "start_time".toList)
  | .timeRefImgId => ("DEFAULT".toList, "time_ref_img_id".toList)
  | .timeRefImgFile => ("DEFAULT".toList, "time_ref_img_file".toList)
  | .timeRefImgTime => ("DEFAULT".toList, "time_ref_img_time".toList)
  | .timeDiff => ("DEFAULT".toList, "exif_time_infront_real_time".toList)
  | .refImgId => ("find_search_areas".toList, "ref_img_id".toList)
  | .percentile => ("find_search_areas".toList, "pixel_value_percentile".toList)
  | .channel => ("find_search_areas".toList, "channel".toList)
  | .searchAreaRadius => ("find_search_areas".toList, "search_area_radius".toList)
  | .maxNumLeds => ("find_search_areas".toList, "max_num_leds".toList)
  | .numArrays => ("analyse_positions".toList, "num_arrays".toList)
  | .ignoreLedIndices => ("analyse_positions".toList, "ignore_led_indices".toList)
  | .edgeIndices => ("analyse_positions".toList, "led_array_edge_indices".toList)
  | .edgeCoordinates => ("analyse_positions".toList, "led_array_edge_coordinates".toList)
  | .mergeIndices => ("analyse_positions".toList, "merge_led_array_indices".toList)
  | .firstImgAnalysisId => ("analyse_photo".toList, "first_img_analysis_id".toList)
  | .lastImgAnalysisId => ("analyse_photo".toList, "last_img_analysis_id".toList)
  | .numSkipImgs => ("analyse_photo".toList, "num_skip_imgs".toList)
  | .numSkipLeds => ("analyse_photo".toList, "num_skip_leds".toList)

/-- Where each option is found after loading. -/
theorem lookup_new (v : Arg → List Str) (a : Arg) (ha : a ≠ .timeRefImgId) :
    lookup (loaded (newConfig v)) (docName a).1 (docName a).2 = some (some (normLines (v a))) := by
  cases a <;> first | exact absurd rfl ha | rfl

/-- **C55.** Every option with a value that fits on one line, except the id of the time reference image, is read back under
its documented name with exactly the given value, and so are tables whose lines are indented by three characters. Missing:
the id of the time reference image (`C55_false`), tables with less indentation (`C55_multiline_false`), and values with a
percent sign (`C55_percent_false`). -/
theorem C55_new_options_partial (v : Arg → List Str) (hv : GoodArgs v) (a : Arg) (ha : a ≠ .timeRefImgId)
    (x : Str) (hx : v a = [x]) (ht : strip x = x) :
    ∃ c, readIni (writeIni (newConfig v)) = .ok c ∧ lookup c (docName a).1 (docName a).2 = some (some [x]) := by
  refine ⟨_, C55_round_trip _ (newConfig_good v hv), ?_⟩
  rw [lookup_new v a ha, hx, normLines, List.map_singleton, ht]
  simp only [List.reverse_singleton, joinLines]
  cases x with
  | nil => rfl
  | cons c t => rw [List.dropWhile_cons_of_neg (by simp)]; rfl

/-- Refuted: the id of the time reference image is not found under its name, whatever was given. -/
theorem C55_false (v : Arg → List Str) (hv : GoodArgs v) :
    ∃ c, readIni (writeIni (newConfig v)) = .ok c ∧ lookup c "DEFAULT".toList "time_ref_img_id".toList = none :=
  ⟨_, C55_round_trip _ (newConfig_good v hv), by rfl⟩

theorem eq_error_of {α : Type} {x : Except PyErr α} {e : PyErr}
    (h : (match x with | .error e' => decide (e' = e) | .ok _ => false) = true) : x = .error e := by
  cases x with
  | error e' => simpa using h
  | ok a => cases h

/-- Refuted: a new configuration with a table whose lines are not indented cannot be loaded. -/
theorem C55_multiline_false :
    readIni (writeIni (newConfig fun a => if a = .edgeIndices then [[], "1 2".toList, "3 4".toList] else ["None".toList])) =
      .error .attributeError := by
  apply eq_error_of
  decide +kernel

/-- A table whose lines are indented by three spaces is read. -/
example : (readIni (writeIni (newConfig fun a => if a = .edgeIndices then [[], "   1 2".toList, "    3 4".toList]
      else ["None".toList]))).toOption.map (fun c => lookup c "analyse_positions".toList "led_array_edge_indices".toList) =
      some (some (some [[], "1 2".toList, "3 4".toList])) := by decide +kernel

/-- Single line values always survive. -/
theorem goodArgs_single (v : Arg → Str) : GoodArgs fun a => [v a] := by
  intro a; simp

theorem dropDoublePercent_of_not_mem : ∀ v : Str, '%' ∉ v → dropDoublePercent v = v
  | [], _ => rfl
  | c :: t, h => by
    have hc : c ≠ '%' := by rintro rfl; simp at h
    rw [dropDoublePercent, dropDoublePercent_of_not_mem t (fun hm => h (by simp [hm]))]
    intro u hu _
    exact absurd hu hc

/-- Refuted: a text with a single percent sign, such as a directory name, cannot be stored at all. -/
theorem C55_percent_false (a b : Str) (ha : '%' ∉ a) (hb : '%' ∉ b) : percentOk (a ++ '%' :: b) = false := by
  have h : ∀ a : Str, '%' ∉ a → dropDoublePercent (a ++ '%' :: b) = a ++ '%' :: b := by
    intro a
    induction a with
    | nil =>
      intro _
      cases b with
      | nil => rfl
      | cons c t =>
        have hc : c ≠ '%' := by rintro rfl; simp at hb
        rw [List.nil_append, dropDoublePercent, dropDoublePercent_of_not_mem _ hb]
        intro u _ hu
        exact hc (List.cons.inj hu).1
    | cons c t ih =>
      intro h
      have hc : c ≠ '%' := by rintro rfl; simp at h
      rw [List.cons_append, dropDoublePercent, ih (fun hm => h (by simp [hm]))]
      intro u hu _
      exact absurd hu hc
  unfold percentOk
  rw [h a ha]
  simp

/-- Texts without percent sign are stored. -/
theorem C55_no_percent (v : Str) (h : '%' ∉ v) : percentOk v = true := by
  unfold percentOk; rw [dropDoublePercent_of_not_mem v h]; simpa using h

theorem find_key {items : List IniItem} (hn : (items.map (·.1)).Nodup) {k : Str} {x : Option (List Str)} (h : (k, x) ∈ items) :
    (items.find? fun i => i.1 = k) = some (k, x) := by
  induction items with
  | nil => simp at h
  | cons i items ih =>
    rw [List.map_cons, List.nodup_cons] at hn
    rcases List.mem_cons.1 h with rfl | h
    · rw [List.find?_cons_of_pos (by simp)]
    · rw [List.find?_cons_of_neg, ih hn.2 h]
      simp only [decide_eq_true_eq]
      rintro rfl
      exact hn.1 (List.mem_map.2 ⟨_, h, rfl⟩)

theorem section_items {c : Ini} (hn : (c.map (·.1)).Nodup) {n : Str} {items : List IniItem} (h : (n, items) ∈ c) :
    (c.filter fun s => s.1 = n).flatMap (·.2) = items := by
  induction c with
  | nil => simp at h
  | cons s c ih =>
    rw [List.map_cons, List.nodup_cons] at hn
    rcases List.mem_cons.1 h with rfl | h
    · rw [List.filter_cons_of_pos (by simp), List.flatMap_cons]
      have : (c.filter fun s => s.1 = n) = [] := by
        rw [List.filter_eq_nil_iff]
        intro t ht
        simp only [decide_eq_true_eq]
        rintro rfl
        exact hn.1 (List.mem_map.2 ⟨_, ht, rfl⟩)
      rw [this]; simp
    · rw [List.filter_cons_of_neg, ih hn.2 h]
      simp only [decide_eq_true_eq]
      rintro rfl
      exact hn.1 (List.mem_map.2 ⟨_, h, rfl⟩)

/-- **C55.** An option that a section has itself has the value given there, whatever `DEFAULT` says. -/
theorem C55_own_value (c : Ini) (hn : (c.map (·.1)).Nodup) (sec key : Str) (items : List IniItem) (x : Option (List Str))
    (hs : (sec, items) ∈ c) (hk : (items.map (·.1)).Nodup) (h : (key, x) ∈ items) : lookup c sec key = some x := by
  unfold lookup
  rw [section_items hn hs, find_key hk h]

/-- **C55.** An option that a section does not have has the value of section `DEFAULT`. -/
theorem C55_default_value (c : Ini) (hn : (c.map (·.1)).Nodup) (sec key : Str) (items : List IniItem) (x : Option (List Str))
    (hs : ∀ own, (sec, own) ∈ c → key ∉ own.map (·.1))
    (hd : ("DEFAULT".toList, items) ∈ c) (hk : (items.map (·.1)).Nodup) (h : (key, x) ∈ items) :
    lookup c sec key = some x := by
  unfold lookup
  have h1 : (((c.filter fun s => s.1 = sec).flatMap (·.2)).find? fun i => i.1 = key) = none := by
    rw [List.find?_eq_none]
    intro i hi
    obtain ⟨s, hs', hi'⟩ := List.mem_flatMap.1 hi
    rw [List.mem_filter, decide_eq_true_eq] at hs'
    obtain ⟨hm, rfl⟩ := hs'
    simp only [decide_eq_true_eq]
    rintro rfl
    exact hs s.2 hm (List.mem_map.2 ⟨_, hi', rfl⟩)
  rw [h1, section_items hn hd, find_key hk h]
  rfl

/-- **C55.** Lines that start with `#` or `;` after white space have no effect, wherever they are. -/
theorem C55_comment_lines (a b : List Str) (l : Str) (h : (strip l).head? = some '#' ∨ (strip l).head? = some ';') :
    readIni (a ++ l :: b) = readIni (a ++ b) := by
  have h1 : ∀ st, readLine st l = .ok st := by
    intro st
    unfold readLine
    rw [if_pos]
    unfold isComment
    rcases h with h | h <;> rw [h] <;> rfl
  have h2 : ∀ (a : List Str) (st : IniState), readLines st (a ++ l :: b) = readLines st (a ++ b) := by
    intro a
    induction a with
    | nil => intro st; rw [List.nil_append, readLines, h1]; rfl
    | cons x a ih =>
      intro st
      rw [List.cons_append, List.cons_append, readLines, readLines]
      cases readLine st x with
      | error e => rfl
      | ok st' => exact ih st'
  unfold readIni
  rw [h2]

/-! ### C58 -/

theorem mapM_flatMap_ok {α β γ : Type} (f : α → List β) (g : β → Except PyErr γ) : ∀ (l : List α) (r : List (List γ)),
    l.mapM (fun a => (f a).mapM g) = .ok r → (l.flatMap f).mapM g = .ok r.flatten := by
  intro l
  induction l with
  | nil => intro r h; cases h; rfl
  | cons a l ih =>
    intro r h
    rw [List.mapM_cons] at h
    cases h1 : (f a).mapM g with
    | error e => rw [h1] at h; cases h
    | ok x =>
      cases h2 : l.mapM (fun a => (f a).mapM g) with
      | error e => rw [h1, h2] at h; cases h
      | ok y =>
        rw [h1, h2] at h
        cases h
        rw [List.flatMap_cons, List.mapM_append, h1, ih y h2]
        rfl

theorem rowsOf_flatten {α : Type} (n : Nat) (hn : 0 < n) : ∀ r : List (List α), (∀ x ∈ r, x.length = n) →
    rowsOf n r.flatten = r := by
  intro r
  induction r with
  | nil => intro _; simp [rowsOf]
  | cons x r ih =>
    intro h
    have hx := h x (by simp)
    have hr := ih (fun y hy => h y (by simp [hy]))
    have hl : (x :: r).flatten.length / n = r.flatten.length / n + 1 := by
      rw [List.flatten_cons, List.length_append, hx, Nat.add_comm, Nat.add_div_right _ hn]
    unfold rowsOf at hr ⊢
    rw [hl, List.range_succ_eq_map, List.map_cons, List.map_map]
    congr 1
    · rw [List.flatten_cons, Nat.mul_zero, List.drop_zero, List.take_append_of_le_length (by omega),
        List.take_of_length_le (by omega)]
    · conv_rhs => rw [← hr]
      apply List.map_congr_left
      intro i _
      simp only [Function.comp]
      have e : n * Nat.succ i = x.length + n * i := by rw [hx, Nat.succ_eq_add_one, Nat.mul_add, Nat.mul_one, Nat.add_comm]
      rw [List.flatten_cons, e, List.drop_length_add_append]

theorem rowsOf_length {α : Type} (n : Nat) (l : List α) : ∀ x ∈ rowsOf n l, x.length = n := by
  intro x hx
  obtain ⟨i, hi, rfl⟩ := List.mem_map.1 hx
  have hi := List.mem_range.1 hi
  have h1 : n * (i + 1) ≤ n * (l.length / n) := Nat.mul_le_mul_left n hi
  have h2 := Nat.mul_div_le l.length n
  rw [Nat.mul_add, Nat.mul_one] at h1
  simp
  omega

/-- Splitting is not changed by loading a value. -/
theorem normLines_tokens (ls : List Str) : (normLines ls).flatMap splitWs = ls.flatMap splitWs := by
  have h : ∀ r : List Str, (joinLines r).flatMap splitWs = r.reverse.flatMap splitWs := by
    intro r
    have hd : r.reverse.flatMap splitWs = (r.dropWhile (· = [])).reverse.flatMap splitWs := by
      induction r with
      | nil => rfl
      | cons x r ih =>
        by_cases hx : x = []
        · rw [List.dropWhile_cons_of_pos (by simpa using hx), ← ih, hx]
          simp [splitWs, splitWsAux]
        · rw [List.dropWhile_cons_of_neg (by simpa using hx)]
    rw [hd]
    unfold joinLines
    split
    · rename_i h; rw [h]; rfl
    · rfl
  unfold normLines
  rw [h, List.reverse_reverse, List.flatMap_map]
  congr 1
  funext s
  exact splitWs_strip s

theorem promptLines_tokens (answers : List Str) : (promptLines answers).flatMap splitWs = answers.flatMap splitWs := by
  have ht : ∀ a : Str, splitWs ("\t    ".toList ++ a) = splitWs a := by
    intro a
    unfold splitWs
    exact splitWsAux_space _ _ (by decide)
  unfold promptLines
  rw [List.flatMap_append, List.flatMap_cons, List.flatMap_map]
  simp only [ht]
  have h0 : splitWs [] = [] := rfl
  simp [h0]

/-- **C58.** After entering one line of numbers for each array, saving and loading, the rows of the table are the lines
entered iff every line has the right number of entries. -/
theorem C58_rows_iff (n : Nat) (hn : 0 < n) (answers : List Str) (rows : List (List Int))
    (h : answers.mapM (fun a => (splitWs a).mapM pyInt) = .ok rows) (hnone : normLines (promptLines answers) ≠ ["None".toList]) :
    get2d n (normLines (promptLines answers)) = .ok (some rows) ↔ ∀ r ∈ rows, r.length = n := by
  have e : get2d n (normLines (promptLines answers)) = .ok (some (rowsOf n rows.flatten)) := by
    unfold get2d
    rw [if_neg hnone, normLines_tokens, promptLines_tokens, mapM_flatMap_ok _ _ _ _ h]
  rw [e]
  constructor
  · intro h2 r hr
    rw [← Option.some.inj (Except.ok.inj h2)] at hr
    exact rowsOf_length n _ r hr
  · intro h2
    rw [rowsOf_flatten n hn rows h2]

/-- Refuted: wrong numbers of entries are not rejected; whatever the lines look like, the numbers are cut into rows of the
expected length, and numbers left over are dropped. -/
theorem C58_false (n : Nat) (value : List Str) (l : List Int) (h : (value.flatMap splitWs).mapM pyInt = .ok l)
    (hnone : value ≠ ["None".toList]) :
    ∃ rows, get2d n value = .ok (some rows) ∧ rows.length = l.length / n ∧ ∀ r ∈ rows, r.length = n := by
  refine ⟨rowsOf n l, ?_, by simp [rowsOf], rowsOf_length n l⟩
  unfold get2d
  rw [if_neg hnone, h]

/-- A line with one entry too few shifts all following rows. -/
example : get2d 2 (normLines (promptLines ["1 2".toList, "3".toList, "4 5".toList, "6 7".toList])) =
    .ok (some [[1, 2], [3, 4], [5, 6]]) := by decide +kernel

example : get2d 2 (normLines (promptLines ["12 7".toList, " 3  40".toList])) = .ok (some [[12, 7], [3, 40]]) := by
  decide +kernel

/-- **C58.** With a variable number of columns the rows are the non-empty lines. -/
theorem C58_var (value : List Str) (rows : List (List Int)) (hnone : value ≠ ["None".toList]) (hne : ∀ l ∈ value, l ≠ [])
    (h : value.mapM (fun a => (splitWs a).mapM pyInt) = .ok rows) : get2dVar value = .ok (some rows) := by
  unfold get2dVar
  rw [if_neg hnone]
  have : value.filter (· ≠ []) = value := List.filter_eq_self.2 (fun l hl => by simpa using hne l hl)
  rw [this, h]

/-- **C58.** Something that is no number is rejected. -/
theorem C58_no_number_rejected (n : Nat) (value : List Str) (hnone : value ≠ ["None".toList])
    (h : ∃ t ∈ value.flatMap splitWs, ∃ e, pyInt t = .error e) : ∃ e, get2d n value = .error e := by
  obtain ⟨e, he⟩ := mapM_error h
  exact ⟨e, by unfold get2d; rw [if_neg hnone, he]⟩

end Ledsa
