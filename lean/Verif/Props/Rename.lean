import Verif.Model.Rename
import Mathlib.Data.List.Nodup
import Mathlib.Data.List.Perm.Basic
import Mathlib.Data.List.Sort
import Mathlib.Data.List.Induction
/-
C64, C65: renaming images.
-/
namespace Ledsa

/-- Content of a file. -/
def content {C : Type} (d : Dir C) (x : Str) : Option C := (d.find? fun f => f.1 = x).map (·.2)

theorem content_none {C : Type} {d : Dir C} {x : Str} : content d x = none ↔ x ∉ d.names := by
  unfold content Dir.names
  rw [Option.map_eq_none_iff, List.find?_eq_none]
  constructor
  · intro h hm
    obtain ⟨f, hf, e⟩ := List.mem_map.1 hm
    exact h f hf (by simpa using e)
  · intro h f hf
    simp only [decide_eq_true_eq]
    exact fun e => h (e ▸ List.mem_map_of_mem (f := (·.1)) hf)

theorem content_cons {C : Type} (f : Str × C) (d : Dir C) (x : Str) :
    content (f :: d) x = if f.1 = x then some f.2 else content d x := by
  unfold content
  rw [List.find?_cons]
  by_cases h : f.1 = x <;> simp [h]

theorem content_filter {C : Type} (p : Str → Bool) (d : Dir C) (x : Str) :
    content (d.filter fun g => p g.1) x = if p x then content d x else none := by
  induction d with
  | nil => simp [content]
  | cons f d ih =>
    by_cases hp : p f.1
    · rw [List.filter_cons_of_pos (p := fun g : Str × C => p g.1) hp, content_cons, content_cons, ih]
      by_cases hx : f.1 = x
      · subst hx; simp [hp]
      · simp [hx]
    · rw [List.filter_cons_of_neg (p := fun g : Str × C => p g.1) hp, content_cons, ih]
      by_cases hx : f.1 = x
      · subst hx; simp [hp]
      · simp [hx]

/-- What a renaming does, file by file. -/
theorem osRename_content {C : Type} {a b : Str} {d d' : Dir C} (h : osRename a b d = .ok d') (hab : a ≠ b) (x : Str) :
    content d' x = if x = b then content d a else if x = a then none else content d x := by
  unfold osRename at h
  split at h
  · cases h
  · rename_i f hf
    rw [if_neg hab] at h
    rw [← Except.ok.inj h, content_cons]
    have e := content_filter (fun y => decide (y ≠ a ∧ y ≠ b)) d x
    by_cases hb : x = b
    · subst hb
      simp [content, hf]
    · rw [if_neg (fun h => hb h.symm), if_neg hb]
      rw [e]
      by_cases ha : x = a
      · simp [ha]
      · simp [ha, hb]

theorem osRename_ok {C : Type} {a : Str} (b : Str) {d : Dir C} (h : a ∈ d.names) : ∃ d', osRename a b d = .ok d' := by
  unfold osRename
  cases hf : d.find? fun f => f.1 = a with
  | none =>
    have : content d a = none := by simp [content, hf]
    exact absurd h (content_none.1 this)
  | some f =>
    simp only
    split
    · exact ⟨_, rfl⟩
    · exact ⟨_, rfl⟩

theorem osRename_missing {C : Type} {a : Str} (b : Str) {d : Dir C} (h : a ∉ d.names) : osRename a b d = .error .fileNotFound := by
  have := content_none.2 h
  unfold content at this
  unfold osRename
  rw [Option.map_eq_none_iff.1 this]

theorem mem_names {C : Type} {d : Dir C} {x : Str} : x ∈ d.names ↔ content d x ≠ none := by
  rw [ne_eq, content_none, not_not]

/-! ### C64 -/

/-- **C64.** If every file to be renamed exists and is named once, and the new names are distinct and not in use, every file
keeps its content under exactly one name: the renamed ones under their new name, the others under their old one. -/
theorem C64_lossless_partial {C : Type} (plan : List (Str × Str)) (d : Dir C) (hsrc : ∀ p ∈ plan, p.1 ∈ d.names)
    (hs : (plan.map (·.1)).Nodup) (ht : (plan.map (·.2)).Nodup) (hnew : ∀ p ∈ plan, p.2 ∉ d.names) :
    ∃ d', runRenames plan d = (d', none) ∧ (∀ p ∈ plan, content d' p.2 = content d p.1 ∧ content d' p.1 = none) ∧
      ∀ x, x ∉ plan.map (·.1) → x ∉ plan.map (·.2) → content d' x = content d x := by
  induction plan generalizing d with
  | nil => exact ⟨d, rfl, by simp, fun _ _ _ => rfl⟩
  | cons p plan ih =>
    obtain ⟨a, b⟩ := p
    rw [List.map_cons, List.nodup_cons] at hs ht
    obtain ⟨d1, h1⟩ := osRename_ok b (hsrc (a, b) (by simp))
    have hab : a ≠ b := by
      rintro rfl
      exact hnew (a, a) (by simp) (hsrc (a, a) (by simp))
    have hc := osRename_content h1 hab
    have hne : ∀ q ∈ plan, q.1 ≠ a ∧ q.1 ≠ b ∧ q.2 ≠ a ∧ q.2 ≠ b := by
      intro q hq
      refine ⟨fun e => hs.1 (e ▸ List.mem_map_of_mem (f := (·.1)) hq), fun e => ?_, fun e => ?_,
        fun e => ht.1 (e ▸ List.mem_map_of_mem (f := (·.2)) hq)⟩
      · exact hnew (a, b) (by simp) (e ▸ hsrc q (List.mem_cons_of_mem _ hq))
      · exact hnew q (List.mem_cons_of_mem _ hq) (e ▸ hsrc (a, b) (by simp))
    obtain ⟨d', h2, h3, h4⟩ := ih d1
      (fun q hq => by
        obtain ⟨n1, n2, _⟩ := hne q hq
        rw [mem_names, hc, if_neg n2, if_neg n1, ← mem_names]
        exact hsrc q (List.mem_cons_of_mem _ hq)) hs.2 ht.2
      (fun q hq => by
        obtain ⟨_, _, n3, n4⟩ := hne q hq
        rw [mem_names, hc, if_neg n4, if_neg n3, ← mem_names]
        exact hnew q (List.mem_cons_of_mem _ hq))
    refine ⟨d', ?_, ?_, ?_⟩
    · rw [runRenames, h1]
      exact h2
    · intro q hq
      rcases List.mem_cons.1 hq with rfl | hq
      · constructor
        · rw [h4 b ?_ ht.1, hc, if_pos rfl]
          intro hm
          obtain ⟨q, hq, e⟩ := List.mem_map.1 hm
          exact (hne q hq).2.1 e
        · rw [h4 a hs.1 ?_, hc, if_neg hab, if_pos rfl]
          intro hm
          obtain ⟨q, hq, e⟩ := List.mem_map.1 hm
          exact (hne q hq).2.2.1 e
      · obtain ⟨n1, n2, n3, n4⟩ := hne q hq
        obtain ⟨h5, h6⟩ := h3 q hq
        refine ⟨?_, h6⟩
        rw [h5, hc, if_neg n2, if_neg n1]
    · intro x hx1 hx2
      simp only [List.map_cons, List.mem_cons, not_or] at hx1 hx2
      rw [h4 x hx1.2 hx2.2, hc, if_neg hx2.1, if_neg hx1.1]

/-- No renaming replaces another file. -/
def NoOverwrite {C : Type} : List (Str × Str) → Dir C → Prop
  | [], _ => True
  | (a, b) :: l, d => (a = b ∨ b ∉ d.names) ∧ ∀ d', osRename a b d = .ok d' → NoOverwrite l d'

theorem perm_take_out {C : Type} {d : Dir C} (hn : d.names.Nodup) {f : Str × C} (hf : f ∈ d) :
    d.Perm (f :: d.filter fun g => g.1 ≠ f.1) := by
  induction d with
  | nil => cases hf
  | cons g d ih =>
    unfold Dir.names at hn
    rw [List.map_cons, List.nodup_cons] at hn
    rcases List.mem_cons.1 hf with rfl | hf
    · rw [List.filter_cons_of_neg (by simp)]
      rw [List.filter_eq_self.2]
      intro x hx
      simp only [ne_eq, decide_eq_true_eq]
      exact fun e => hn.1 (e ▸ List.mem_map_of_mem (f := (·.1)) hx)
    · have hgf : g.1 ≠ f.1 := fun e => hn.1 (e ▸ List.mem_map_of_mem (f := (·.1)) hf)
      rw [List.filter_cons_of_pos (by simpa using hgf)]
      exact ((ih hn.2 hf).cons g).trans (List.Perm.swap _ _ _)

theorem osRename_step {C : Type} {a b : Str} {d d' : Dir C} (hn : d.names.Nodup) (h : osRename a b d = .ok d') :
    d'.names.Nodup ∧ ((a = b ∨ b ∉ d.names) → (d'.map (·.2)).Perm (d.map (·.2))) ∧
      (¬ (a = b ∨ b ∉ d.names) → d'.length < d.length) ∧ d'.length ≤ d.length := by
  unfold osRename at h
  split at h
  · cases h
  · rename_i f hf
    have hfa : f.1 = a := by simpa using List.find?_some hf
    have hfd : f ∈ d := List.mem_of_find?_eq_some hf
    by_cases hab : a = b
    · rw [if_pos hab] at h
      rw [← Except.ok.inj h]
      exact ⟨hn, fun _ => List.Perm.refl _, fun hc => absurd (.inl hab) hc, le_refl _⟩
    · rw [if_neg hab] at h
      rw [← Except.ok.inj h]
      have e : (d.filter fun g => g.1 ≠ a ∧ g.1 ≠ b) = (d.filter fun g => g.1 ≠ f.1).filter fun g => g.1 ≠ b := by
        rw [List.filter_filter, hfa]
        apply List.filter_congr
        intro g _
        by_cases h1 : g.1 = a <;> by_cases h2 : g.1 = b <;> simp [h1, h2]
      have hp := perm_take_out hn hfd
      have hl := hp.length_eq
      rw [List.length_cons] at hl
      refine ⟨?_, ?_, ?_, ?_⟩
      · unfold Dir.names at hn ⊢
        rw [List.map_cons, List.nodup_cons]
        refine ⟨?_, (hn.sublist (List.filter_sublist.map _))⟩
        intro hm
        obtain ⟨g, hg, e⟩ := List.mem_map.1 hm
        have := (List.mem_filter.1 hg).2
        simp only [ne_eq, decide_eq_true_eq] at this
        exact this.2 e
      · rintro (hc | hc)
        · exact absurd hc hab
        · rw [e]
          have : (d.filter fun g => g.1 ≠ f.1).filter (fun g => g.1 ≠ b) = d.filter fun g => g.1 ≠ f.1 := by
            rw [List.filter_eq_self]
            intro g hg
            simp only [ne_eq, decide_eq_true_eq]
            intro eb
            exact hc (eb ▸ List.mem_map_of_mem (f := (·.1)) (List.mem_filter.1 hg).1)
          rw [this]
          have := (hp.map (·.2)).symm
          simpa using this
      · intro hc
        rw [not_or, not_not] at hc
        obtain ⟨g, hg, eg⟩ := List.mem_map.1 hc.2
        rw [e, List.length_cons]
        have hg2 : g ∈ d.filter fun g => g.1 ≠ f.1 := by
          rw [List.mem_filter]
          refine ⟨hg, ?_⟩
          simp only [ne_eq, decide_eq_true_eq]
          rw [eg, hfa]
          exact fun e => hab e.symm
        have hlt : ((d.filter fun g => g.1 ≠ f.1).filter fun g => g.1 ≠ b).length < (d.filter fun g => g.1 ≠ f.1).length := by
          apply List.length_filter_lt_length_iff_exists.2
          exact ⟨g, hg2, by simp [eg]⟩
        omega
      · rw [e, List.length_cons]
        have := List.length_filter_le (fun g : Str × C => decide (g.1 ≠ b)) (d.filter fun g => g.1 ≠ f.1)
        omega

theorem runRenames_length {C : Type} : ∀ (plan : List (Str × Str)) (d d' : Dir C), d.names.Nodup → runRenames plan d = (d', none) →
    d'.length ≤ d.length
  | [], d, d', _, h => by rw [← (Prod.mk.inj h).1]
  | (a, b) :: l, d, d', hn, h => by
    rw [runRenames] at h
    split at h
    · cases (Prod.mk.inj h).2
    · rename_i d1 h1
      obtain ⟨h2, _, _, h3⟩ := osRename_step hn h1
      exact (runRenames_length l d1 d' h2 h).trans h3

/-- **C64.** A completed renaming keeps all contents exactly if it replaced no file on the way. -/
theorem C64_iff {C : Type} (plan : List (Str × Str)) (d d' : Dir C) (hn : d.names.Nodup) (h : runRenames plan d = (d', none)) :
    (d'.map (·.2)).Perm (d.map (·.2)) ↔ NoOverwrite plan d := by
  induction plan generalizing d with
  | nil => rw [← (Prod.mk.inj h).1]; simp [NoOverwrite]
  | cons p l ih =>
    obtain ⟨a, b⟩ := p
    rw [runRenames] at h
    split at h
    · cases (Prod.mk.inj h).2
    · rename_i d1 h1
      obtain ⟨h2, h3, h4, _⟩ := osRename_step hn h1
      have ih := ih d1 h2 h
      unfold NoOverwrite
      by_cases hc : a = b ∨ b ∉ d.names
      · have e : (d'.map (·.2)).Perm (d.map (·.2)) ↔ (d'.map (·.2)).Perm (d1.map (·.2)) :=
          ⟨fun x => x.trans (h3 hc).symm, fun x => x.trans (h3 hc)⟩
        rw [e, ih]
        constructor
        · intro hx
          refine ⟨hc, fun d2 hd2 => ?_⟩
          rw [h1] at hd2
          rw [← Except.ok.inj hd2]
          exact hx
        · intro hx
          exact hx.2 d1 h1
      · constructor
        · intro hp
          have l1 := hp.length_eq
          simp only [List.length_map] at l1
          have l2 := runRenames_length l d1 d' h2 h
          have l3 := h4 hc
          omega
        · intro hx
          exact absurd hx.1 hc

/-- The separator is not in the last part. -/
theorem last_sep {s : Char} {x x' e e' : Str} (he : s ∉ e) (he' : s ∉ e') (h : x ++ s :: e = x' ++ s :: e') : x = x' ∧ e = e' := by
  rcases List.append_eq_append_iff.1 h with ⟨y, h1, h2⟩ | ⟨y, h1, h2⟩
  · cases y with
    | nil => simp at h1 h2; exact ⟨h1.symm, h2⟩
    | cons z y =>
      injection h2 with _ h4
      exact absurd (h4 ▸ List.mem_append_right _ (by simp)) he
  · cases y with
    | nil => simp at h1 h2; exact ⟨h1, h2.symm⟩
    | cons z y =>
      injection h2 with _ h4
      exact absurd (h4 ▸ List.mem_append_right _ (by simp)) he'

theorem splitChar_parts {c : Char} : ∀ {s f : Str}, f ∈ splitChar c s → c ∉ f
  | [], f, h => by simp [splitChar] at h; subst h; simp
  | x :: s, f, h => by
    unfold splitChar at h
    split at h
    · rcases List.mem_cons.1 h with rfl | h
      · simp
      · exact splitChar_parts h
    · rename_i hx
      split at h
      · rename_i he
        exact absurd he (splitChar_ne_nil c s)
      · rename_i g gs he
        rcases List.mem_cons.1 h with rfl | h
        · rw [List.mem_cons, not_or]
          exact ⟨fun e => hx e.symm, splitChar_parts (s := s) (by rw [he]; simp)⟩
        · exact splitChar_parts (s := s) (by rw [he]; exact List.mem_cons_of_mem _ h)

theorem extOf_no_dot (raw : Str) : '.' ∉ extOf raw := by
  unfold extOf
  obtain ⟨x, l, e⟩ := List.exists_cons_of_ne_nil (splitChar_ne_nil '.' raw)
  rw [List.getLastD_eq_getLast?, List.getLast?_eq_some_getLast (splitChar_ne_nil '.' raw)]
  exact splitChar_parts (List.getLast_mem _)

/-- Number and ending can be read off a new name. -/
theorem new_name_inj {u u' e e' : Str} {c c' : Nat} (he : '.' ∉ e) (he' : '.' ∉ e')
    (h : u ++ '_' :: natStr c ++ '.' :: e = u' ++ '_' :: natStr c' ++ '.' :: e') : c = c' ∧ e = e' := by
  obtain ⟨h1, h2⟩ := last_sep he he' h
  have hd : ∀ n, '_' ∉ natStr n := fun n hm => absurd (natStr_isDigit n _ hm) (by decide)
  exact ⟨natStr_injective (last_sep (hd c) (hd c') h1).2, h2⟩

theorem plan_counts (name : Str) : ∀ (l : List Shot) (n : Nat) (p : Str × Str), p ∈ renamePlan name l n →
    ∃ u c e, n ≤ c ∧ '.' ∉ e ∧ p.2 = u ++ '_' :: natStr c ++ '.' :: e
  | [], _, p, h => by cases h
  | s :: l, n, p, h => by
    rw [renamePlan] at h
    rcases List.mem_cons.1 h with rfl | h
    · exact ⟨s.stamp ++ '_' :: name, n, extOf s.raw, le_refl _, extOf_no_dot _, by simp [newRaw]⟩
    · rcases List.mem_cons.1 h with rfl | h
      · exact ⟨s.stamp ++ '_' :: name, n, "jpg".toList, le_refl _, by decide, by simp [newImage]⟩
      · obtain ⟨u, c, e, h1, h2, h3⟩ := plan_counts name l (n + 1) p h
        exact ⟨u, c, e, by omega, h2, h3⟩

/-- **C64.** The new names are distinct, for any name entered, exactly if no raw file has the ending `jpg`. -/
theorem C64_new_names (name : Str) (shots : List Shot) (n : Nat) :
    ((renamePlan name shots n).map (·.2)).Nodup ↔ ∀ s ∈ shots, extOf s.raw ≠ "jpg".toList := by
  induction shots generalizing n with
  | nil => simp [renamePlan]
  | cons s l ih =>
    have hrest : ∀ (u e : Str), '.' ∉ e → u ++ '_' :: natStr n ++ '.' :: e ∉ (renamePlan name l (n + 1)).map (·.2) := by
      intro u e he hm
      obtain ⟨p, hp, e2⟩ := List.mem_map.1 hm
      obtain ⟨u', c, e', h1, h2, h3⟩ := plan_counts name l (n + 1) p hp
      rw [h3] at e2
      have := (new_name_inj h2 he e2).1
      omega
    have h1 := hrest (s.stamp ++ '_' :: name) (extOf s.raw) (extOf_no_dot _)
    have h2 := hrest (s.stamp ++ '_' :: name) "jpg".toList (by decide)
    have e1 : s.stamp ++ '_' :: name ++ '_' :: natStr n ++ '.' :: extOf s.raw = newRaw name s n := by simp [newRaw]
    have e2 : s.stamp ++ '_' :: name ++ '_' :: natStr n ++ '.' :: "jpg".toList = newImage name s n := by simp [newImage]
    rw [e1] at h1
    rw [e2] at h2
    rw [renamePlan, List.map_cons, List.map_cons, List.nodup_cons, List.nodup_cons, ih, List.mem_cons, not_or,
      List.forall_mem_cons]
    have hx : newRaw name s n ≠ newImage name s n ↔ extOf s.raw ≠ "jpg".toList := by
      rw [not_iff_not, ← e1, ← e2]
      constructor
      · intro h
        exact (new_name_inj (extOf_no_dot _) (by decide) h).2
      · intro h
        rw [h]
    constructor
    · rintro ⟨⟨a, _⟩, _, b⟩
      exact ⟨hx.1 a, b⟩
    · rintro ⟨a, b⟩
      exact ⟨⟨hx.2 a, h1⟩, h2, b⟩

/-- **C64.** The image in row `i` gets the number `i + 1`. -/
theorem C64_numbers (name : Str) (shots : List Shot) (n i : Nat) (s : Shot) (h : shots[i]? = some s) :
    (s.raw, newRaw name s (n + i)) ∈ renamePlan name shots n ∧ (s.image, newImage name s (n + i)) ∈ renamePlan name shots n := by
  induction shots generalizing n i with
  | nil => simp at h
  | cons t l ih =>
    cases i with
    | zero =>
      simp only [List.getElem?_cons_zero, Option.some.injEq] at h
      subst h
      simp [renamePlan]
    | succ i =>
      have := ih (n + 1) i (by simpa using h)
      rw [show n + (i + 1) = n + 1 + i by omega]
      simp only [renamePlan, List.mem_cons]
      exact ⟨.inr (.inr this.1), .inr (.inr this.2)⟩

/-- **C64.** In a table sorted by date, earlier images have smaller numbers. -/
theorem C64_order (shots : List Shot) (hs : shots.Pairwise fun a b => a.date ≤ b.date) (i j : Nat) (a b : Shot)
    (hi : shots[i]? = some a) (hj : shots[j]? = some b) (h : a.date < b.date) : i + 1 < j + 1 := by
  by_contra hc
  obtain ⟨hi1, hi2⟩ := List.getElem?_eq_some_iff.1 hi
  obtain ⟨hj1, hj2⟩ := List.getElem?_eq_some_iff.1 hj
  rcases Nat.lt_or_ge j i with hji | hji
  · have := List.pairwise_iff_getElem.1 hs j i hj1 hi1 hji
    rw [hi2, hj2] at this
    omega
  · have : i = j := by omega
    subst this
    rw [hi2] at hj2
    rw [hj2] at h
    omega

/-- Refuted: files of the directory that bear one of the new names are replaced although the renaming is reported as
successful; here two of four contents are lost. -/
theorem C64_overwrite_false :
    runRenames (renamePlan "x".toList [⟨"b.jpg".toList, "b.cr2".toList, 0, "180101".toList⟩,
        ⟨"180101_x_1.jpg".toList, "180101_x_1.cr2".toList, 1, "180101".toList⟩] 1)
      [("180101_x_1.jpg".toList, 1), ("180101_x_1.cr2".toList, 2), ("b.jpg".toList, 3), ("b.cr2".toList, 4)] =
    ([("180101_x_2.jpg".toList, 3), ("180101_x_2.cr2".toList, 4)], none) := by decide +kernel

/-- Refuted: a raw file ending in `jpg` is replaced by its image, for every directory and name. -/
theorem C64_jpg_false {C : Type} (name : Str) (s : Shot) (l : List Shot) (d d' : Dir C) (hn : d.names.Nodup)
    (he : extOf s.raw = "jpg".toList) (hi : s.image ≠ newImage name s 1) (h : runRenames (renamePlan name (s :: l) 1) d = (d', none)) :
    ¬ (d'.map (·.2)).Perm (d.map (·.2)) := by
  rw [C64_iff _ d d' hn h]
  have e : newRaw name s 1 = newImage name s 1 := by simp [newRaw, newImage, he]
  rw [renamePlan, e] at h ⊢
  intro hno
  rw [runRenames] at h
  split at h
  · cases (Prod.mk.inj h).2
  · rename_i d1 h1
    have h2 := (hno.2 d1 h1).1
    rcases h2 with h2 | h2
    · exact hi h2
    · by_cases hr : s.raw = newImage name s 1
      · rw [hr] at h1
        unfold osRename at h1
        split at h1
        · cases h1
        · rename_i f hf
          rw [if_pos rfl] at h1
          rw [← Except.ok.inj h1] at h2
          have : f.1 = newImage name s 1 := by simpa using List.find?_some hf
          exact h2 (this ▸ List.mem_map_of_mem (f := (·.1)) (List.mem_of_find?_eq_some hf))
      · have hc := osRename_content h1 hr (newImage name s 1)
        rw [if_pos rfl] at hc
        rw [content_none.2 h2] at hc
        have hm := content_none.1 hc.symm
        rw [osRename_missing _ hm] at h1
        cases h1

example : runRenames (renamePlan "x".toList [⟨"b.jpg".toList, "b.cr2".toList, 0, "180101".toList⟩,
      ⟨"a.jpg".toList, "a.cr2".toList, 1, "180101".toList⟩] 1)
    [("a.jpg".toList, 1), ("a.cr2".toList, 2), ("b.jpg".toList, 3), ("b.cr2".toList, 4), ("notes".toList, 5)] =
  ([("180101_x_2.jpg".toList, 1), ("180101_x_2.cr2".toList, 2), ("180101_x_1.jpg".toList, 3), ("180101_x_1.cr2".toList, 4),
    ("notes".toList, 5)], none) := by decide +kernel

/-! ### C65 -/

/-- **C65.** Without the answer `y` nothing is renamed and nothing is reported as renamed. -/
theorem C65_only_after_y {C : Type} (plan : List (Str × Str)) (answers : List Str) (d : Dir C) (ms : List RenameMsg)
    (h : "y".toList ∉ answers) : (renameDialogue plan answers d ms).dir = d ∧
      (RenameMsg.renamed ∈ (renameDialogue plan answers d ms).msgs → RenameMsg.renamed ∈ ms) := by
  match answers with
  | [] => exact ⟨rfl, id⟩
  | [a] =>
    simp only [List.mem_singleton] at h
    rw [renameDialogue, if_neg (fun e => h e.symm)]
    split
    · exact ⟨rfl, by simp⟩
    · exact ⟨rfl, id⟩
  | a :: b :: rest =>
    simp only [List.mem_cons, not_or] at h
    rw [renameDialogue, if_neg (fun e => h.1 e.symm)]
    split
    · exact ⟨rfl, by simp⟩
    · exact C65_only_after_y plan (b :: rest) d ms (by simp only [List.mem_cons, not_or]; exact h.2)

/-- **C65.** If the message that no files were renamed appears without a message of success before it, the directory is
unchanged. -/
theorem C65_message_partial {C : Type} (plan : List (Str × Str)) (answers : List Str) (d : Dir C)
    (h : (renameDialogue plan answers d []).msgs = [.noneRenamed]) : (renameDialogue plan answers d []).dir = d := by
  have key : ∀ (answers : List Str) (d : Dir C) (ms : List RenameMsg), .renamed ∈ ms →
      .renamed ∈ (renameDialogue plan answers d ms).msgs := by
    intro answers
    induction answers using List.twoStepInduction with
    | nil => intro d ms h; exact h
    | singleton a =>
      intro d ms h
      rw [renameDialogue]
      split
      · split <;> simp [h]
      · split <;> simp [h]
    | cons_cons a b rest ih1 ih2 =>
      intro d ms h
      rw [renameDialogue]
      split
      · split
        · exact h
        · split
          · simp [h]
          · split
            · simp [h]
            · exact ih1 _ _ (by simp [h])
      · split
        · simp [h]
        · exact ih2 b _ _ h
  induction answers using List.twoStepInduction with
  | nil => rfl
  | singleton a =>
    rw [renameDialogue] at h ⊢
    split at h
    · split at h <;> simp at h
    · rename_i ha
      rw [if_neg ha]
      split <;> rfl
  | cons_cons a b rest ih1 ih2 =>
    rw [renameDialogue] at h ⊢
    split at h
    · split at h
      · simp at h
      · split at h
        · simp at h
        · split at h
          · simp at h
          · exfalso
            rename_i d' _ _ _
            have := key rest d' ([] ++ [.renamed]) (by simp)
            rw [h] at this
            simp at this
    · rename_i ha
      rw [if_neg ha]
      split at h
      · rename_i hb
        rw [if_pos hb]
      · rename_i hb
        rw [if_neg hb]
        exact ih2 b h

/-- Refuted: after a successful renaming, any other answer than `y` and `n` to the question about the log, followed by `n`,
prints that no files were renamed. -/
theorem C65_message_false {C : Type} (plan : List (Str × Str)) (d d' : Dir C) (a : Str) (h : runRenames plan d = (d', none))
    (h1 : a ≠ "y".toList) (h2 : a ≠ "n".toList) :
    renameDialogue plan ["y".toList, a, "n".toList] d [] = ⟨d', [.renamed, .noneRenamed], true, .exited⟩ := by
  rw [renameDialogue, if_pos rfl, h]
  simp only
  rw [if_neg h1, if_neg h2, renameDialogue, if_neg (by decide), if_pos rfl]
  rfl

/-- **C65.** If the renaming was of the harmless kind of `C64_lossless_partial`, a second `y` fails at once and changes
nothing. -/
theorem C65_once_partial {C : Type} (plan : List (Str × Str)) (d : Dir C) (hp : plan ≠ []) (hsrc : ∀ p ∈ plan, p.1 ∈ d.names)
    (hs : (plan.map (·.1)).Nodup) (ht : (plan.map (·.2)).Nodup) (hnew : ∀ p ∈ plan, p.2 ∉ d.names) (a : Str)
    (h1 : a ≠ "y".toList) (h2 : a ≠ "n".toList) (rest : List Str) :
    ∃ d', runRenames plan d = (d', none) ∧
      renameDialogue plan ("y".toList :: a :: "y".toList :: rest) d [] = ⟨d', [.renamed], true, .failed .fileNotFound⟩ := by
  obtain ⟨d', h3, h4, _⟩ := C64_lossless_partial plan d hsrc hs ht hnew
  refine ⟨d', h3, ?_⟩
  obtain ⟨p, l, rfl⟩ := List.exists_cons_of_ne_nil hp
  obtain ⟨x, y⟩ := p
  have hm : x ∉ d'.names := content_none.1 (h4 (x, y) (by simp)).2
  have h5 : runRenames ((x, y) :: l) d' = (d', some .fileNotFound) := by
    rw [runRenames, osRename_missing _ hm]
  rw [renameDialogue, if_pos rfl, h3]
  simp only
  rw [if_neg h1, if_neg h2]
  cases rest with
  | nil => rw [renameDialogue, if_pos rfl, h5]; rfl
  | cons b rest => rw [renameDialogue, if_pos rfl, h5]; rfl

/-- Refuted: with `y`, another answer and `y` files are renamed twice; here the second time destroys two contents that the
first time had kept. -/
theorem C65_once_false :
    let plan := renamePlan "x".toList [⟨"180101_x_2.jpg".toList, "180101_x_2.cr2".toList, 0, "180101".toList⟩,
      ⟨"b.jpg".toList, "b.cr2".toList, 1, "180101".toList⟩] 1
    let d := [("180101_x_2.jpg".toList, 1), ("180101_x_2.cr2".toList, 2), ("b.jpg".toList, 3), ("b.cr2".toList, 4)]
    (runRenames plan d).1.map (·.2) = [3, 4, 1, 2] ∧
    (renameDialogue plan ["y".toList, "yes".toList, "y".toList] d []).dir.map (·.2) = [3, 4] := by decide +kernel

theorem rawOf_spec (names : List Str) (base : Str) (types : List Str) :
    (rawOf names base types = "NaT".toList ∧ ∀ t ∈ types, base ++ '.' :: t ∉ names) ∨
      ∃ t ∈ types, rawOf names base types = base ++ '.' :: t ∧ base ++ '.' :: t ∈ names := by
  induction types with
  | nil => left; simp [rawOf]
  | cons t ts ih =>
    rw [rawOf]
    split
    · rename_i h
      exact .inr ⟨t, by simp, rfl, h⟩
    · rename_i h
      rcases ih with ⟨h1, h2⟩ | ⟨u, h1, h2⟩
      · left
        refine ⟨h1, fun u hu => ?_⟩
        rcases List.mem_cons.1 hu with rfl | hu
        · exact h
        · exact h2 u hu
      · exact .inr ⟨u, List.mem_cons_of_mem _ h1, h2⟩

theorem runRenames_append {C : Type} (p q : List (Str × Str)) (d : Dir C) :
    runRenames (p ++ q) d = match runRenames p d with | (d', none) => runRenames q d' | r => r := by
  induction p generalizing d with
  | nil => rfl
  | cons x p ih =>
    obtain ⟨a, b⟩ := x
    rw [List.cons_append, runRenames, runRenames]
    cases osRename a b d with
    | error e => rfl
    | ok d1 => exact ih d1

theorem renamePlan_append (name : Str) (l l' : List Shot) (n : Nat) :
    renamePlan name (l ++ l') n = renamePlan name l n ++ renamePlan name l' (n + l.length) := by
  induction l generalizing n with
  | nil => rfl
  | cons s l ih =>
    rw [List.cons_append, renamePlan, renamePlan, ih, List.length_cons, show n + 1 + l.length = n + (l.length + 1) by omega]
    rfl

/-- Refuted: an image without raw file ends the renaming with an exception after the images before it have been renamed; it
and all later ones are not renamed. -/
theorem C65_no_raw_false {C : Type} (name : Str) (l l' : List Shot) (s : Shot) (d d1 : Dir C)
    (hl : runRenames (renamePlan name l 1) d = (d1, none)) (names base : _) (types : List Str) (hs : s.raw = rawOf names base types)
    (hno : ∀ t ∈ types, base ++ '.' :: t ∉ names) (hd : "NaT".toList ∉ d1.names) (rest : List Str) :
    renameDialogue (renamePlan name (l ++ s :: l') 1) ("y".toList :: rest) d [] = ⟨d1, [], true, .failed .fileNotFound⟩ := by
  have hr : s.raw = "NaT".toList := by
    rw [hs]
    rcases rawOf_spec names base types with ⟨h, _⟩ | ⟨t, h1, _, h3⟩
    · exact h
    · exact absurd h3 (hno t h1)
  have h5 : runRenames (renamePlan name (l ++ s :: l') 1) d = (d1, some .fileNotFound) := by
    rw [renamePlan_append, runRenames_append, hl]
    simp only
    rw [renamePlan, runRenames, hr, osRename_missing _ hd]
  cases rest with
  | nil => rw [renameDialogue, if_pos rfl, h5]
  | cons b rest => rw [renameDialogue, if_pos rfl, h5]

end Ledsa
