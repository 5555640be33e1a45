import Verif.Model.FileHead
import Verif.Props.SavedNumbers
import Verif.Props.Interrupted
/-
C165: which settings of the analysis can be seen from a file of extinction coefficients.
-/
namespace Ledsa

variable {F : Type}

/-! ### Specification -/

/-- `str` of floating point numbers: different numbers have different texts, without comma and line end, and none is `None`. -/
structure HeadFloat.Good (fl : HeadFloat F) : Prop where
  inj : ∀ x y, fl.str x = fl.str y → x = y
  chars : ∀ x, ',' ∉ fl.str x ∧ '\n' ∉ fl.str x
  none : ∀ x, fl.str x ≠ "None".toList
  fixed : ∀ x, ',' ∉ fl.fixed2 x ∧ '\n' ∉ fl.fixed2 x

/-- Names of quantity and version as the program uses them. -/
structure RunSettings.Plain (s : RunSettings F) : Prop where
  property : ',' ∉ s.property ∧ '\n' ∉ s.property
  version : ',' ∉ s.version ∧ '\n' ∉ s.version

/-- The two solvers agree as far as a reader of the head can know: the same solver, and for the linear one the same weight. -/
inductive SameSolver : HeadSolver F → HeadSolver F → Prop
  | linear (lam : F) : SameSolver (.linear lam) (.linear lam)
  | nonlinear (c p c' p' : F) (n n' : ℕ) : SameSolver (.nonlinear c p n) (.nonlinear c' p' n')

/-- Two analyses have the same documented settings. Nothing is said of the number of reference images, averaging, merging and the
parameters of the nonlinear solver. -/
structure SameDocumented (a b : RunSettings F) : Prop where
  channel : a.channel = b.channel
  array : a.array = b.array
  amount : a.amount = b.amount
  bottom : a.bottom = b.bottom
  top : a.top = b.top
  camX : a.camX = b.camX
  camY : a.camY = b.camY
  camZ : a.camZ = b.camZ
  property : a.property = b.property
  refs : a.refs = b.refs
  solver : SameSolver a.solver b.solver
  version : a.version = b.version

/-! ### Fields -/

theorem field_first {c : Char} {a A r R : Str} (ha : c ∉ a) (hA : c ∉ A) (h : a ++ c :: r = A ++ c :: R) : a = A ∧ r = R := by
  have h1 := prefix_field a A r R ha hA (h ▸ List.prefix_refl _)
  refine ⟨h1.1, ?_⟩
  rw [h1.1] at h
  simpa using h

theorem field_last {c : Char} {a A r R : Str} (hr : c ∉ r) (hR : c ∉ R) (h : a ++ c :: r = A ++ c :: R) : a = A ∧ r = R := by
  have h' := congrArg List.reverse h
  simp only [List.reverse_append, List.reverse_cons, List.append_assoc, List.singleton_append] at h'
  obtain ⟨h1, h2⟩ := field_first (by simpa using hr) (by simpa using hR) h'
  exact ⟨List.reverse_injective h2, List.reverse_injective h1⟩

theorem pyListStr_go (l : List ℤ) : ∃ fs : List Str, fs.length = l.length ∧ (pyListStr.go l = joinChar ',' fs) ∧
    (∀ f ∈ fs, ',' ∉ f) ∧ ∀ (i : ℕ) (x : ℤ), l[i]? = some x → fs[i]? = some (if i = 0 then intStr x else ' ' :: intStr x) := by
  have hnum : ∀ v : ℤ, ',' ∉ intStr v := fun v hm => by
    have := intStr_chars v ',' hm
    revert this; decide
  have key : ∀ l : List ℤ, l ≠ [] → ' ' :: pyListStr.go l = joinChar ',' (l.map fun x => ' ' :: intStr x) := by
    intro l
    induction l with
    | nil => intro h; exact absurd rfl h
    | cons x l ih =>
      intro _
      cases l with
      | nil => simp [pyListStr.go, joinChar]
      | cons y l =>
        have := ih (by simp)
        simp only [List.map_cons] at this ⊢
        rw [pyListStr.go, joinChar, ← this]
        · simp
        · simp
        · simp
  cases l with
  | nil => exact ⟨[], rfl, rfl, by simp, by simp⟩
  | cons x l =>
    refine ⟨intStr x :: l.map fun x => ' ' :: intStr x, by simp, ?_, ?_, ?_⟩
    · cases l with
      | nil => simp [pyListStr.go, joinChar]
      | cons y l =>
        have := key (y :: l) (by simp)
        simp only [List.map_cons] at this ⊢
        rw [pyListStr.go, joinChar, ← this]
        · simp
        · simp
        · simp
    · intro f hf
      rcases List.mem_cons.1 hf with rfl | hf
      · exact hnum _
      · obtain ⟨v, _, rfl⟩ := List.mem_map.1 hf
        simp [hnum v]
    · intro i v hv
      cases i with
      | zero => simp only [List.getElem?_cons_zero, Option.some.injEq] at hv; simp [hv]
      | succ i => simp only [List.getElem?_cons_succ] at hv; simp [hv]

theorem intStr_inj {x y : ℤ} (h : intStr x = intStr y) : x = y := by
  have := (pyInt_intStr x).symm.trans (h ▸ pyInt_intStr y)
  exact Except.ok.inj this

/-- Different lists have different texts. -/
theorem pyListStr_inj {l m : List ℤ} (h : pyListStr l = pyListStr m) : l = m := by
  have h1 : pyListStr.go l = pyListStr.go m := by
    unfold pyListStr at h
    simp only [List.cons_append, List.cons.injEq, true_and] at h
    exact List.append_cancel_right h
  obtain ⟨fs, hl, hj, hn, hg⟩ := pyListStr_go l
  obtain ⟨gs, hl', hj', hn', hg'⟩ := pyListStr_go m
  rw [hj, hj'] at h1
  have hempty : ∀ (u : List ℤ) (us : List Str), us.length = u.length →
      (∀ (i : ℕ) (x : ℤ), u[i]? = some x → us[i]? = some (if i = 0 then intStr x else ' ' :: intStr x)) → joinChar ',' us = [] → u = [] := by
    intro u us hu hus hj
    cases u with
    | nil => rfl
    | cons x u =>
      have h0 := hus 0 x rfl
      cases us with
      | nil => cases h0
      | cons f us =>
        simp only [List.getElem?_cons_zero, if_true, Option.some.injEq] at h0
        subst h0
        exfalso
        cases us with
        | nil => exact intStr_ne_nil x (by simpa [joinChar] using hj)
        | cons g us =>
          rw [joinChar] at hj
          · simp at hj
          · simp
  by_cases hfe : fs = []
  · subst hfe
    have : l = [] := by simpa using hl.symm
    rw [this, hempty m gs hl' hg' h1.symm]
  by_cases hge : gs = []
  · subst hge
    have : m = [] := by simpa using hl'.symm
    rw [this, hempty l fs hl hg h1]
  have e : fs = gs := by rw [← splitChar_joinChar hfe hn, h1, splitChar_joinChar hge hn']
  subst e
  apply List.ext_getElem?
  intro i
  cases hi : l[i]? with
  | none =>
    rw [List.getElem?_eq_none_iff] at hi
    rw [eq_comm, List.getElem?_eq_none_iff]
    omega
  | some x =>
    have hi2 : i < m.length := by have := (List.getElem?_eq_some_iff.1 hi).1; omega
    have e1 := hg i x hi
    have e2 := hg' i m[i] (List.getElem?_eq_getElem hi2)
    rw [e1] at e2
    rw [List.getElem?_eq_getElem hi2]
    congr 1
    apply intStr_inj
    by_cases h0 : i = 0
    · simpa [h0] using e2
    · simpa [h0] using e2

theorem refsText_inj {a b : Option (List ℤ)} (h : refsText a = refsText b) : a = b := by
  have hne : ∀ l, pyListStr l ≠ "None".toList := by
    intro l h
    unfold pyListStr at h
    simp only [List.cons_append] at h
    have := (List.cons.inj h).1
    revert this; decide
  cases a with
  | none => cases b with
    | none => rfl
    | some m => exact absurd h.symm (hne m)
  | some l => cases b with
    | none => exact absurd h (hne l)
    | some m => rw [pyListStr_inj h]

/-! ### C165 -/

theorem name_noComma (s : HeadSolver F) : ',' ∉ s.name := by
  cases s with
  | linear => exact (by decide : ',' ∉ "linear".toList)
  | nonlinear => exact (by decide : ',' ∉ "nonlinear".toList)

theorem lamText_noComma {fl : HeadFloat F} (hfl : fl.Good) (s : HeadSolver F) : ',' ∉ s.lamText fl := by
  cases s with
  | linear lam => exact (hfl.chars lam).1
  | nonlinear => exact (by decide : ',' ∉ "None".toList)

theorem tail_fields {R R' S S' L L' V V' : Str} (hS : ',' ∉ S) (hS' : ',' ∉ S') (hL : ',' ∉ L) (hL' : ',' ∉ L') (hV : ',' ∉ V) (hV' : ',' ∉ V')
    (h : R ++ (", Solver: ".toList ++ (S ++ (", Lambda_reg: ".toList ++ (L ++ (", LEDSA ".toList ++ V))))) =
      R' ++ (", Solver: ".toList ++ (S' ++ (", Lambda_reg: ".toList ++ (L' ++ (", LEDSA ".toList ++ V')))))) :
    R = R' ∧ S = S' ∧ L = L' ∧ V = V' := by
  have step : ∀ {A A' X X' : Str} (w : Str), ',' ∉ w → ',' ∉ X → ',' ∉ X' → A ++ ((',' :: w) ++ X) = A' ++ ((',' :: w) ++ X') →
      A = A' ∧ X = X' := by
    intro A A' X X' w hw hX hX' h
    rw [List.cons_append, List.cons_append] at h
    obtain ⟨h1, h2⟩ := field_last (by rw [List.mem_append, not_or]; exact ⟨hw, hX⟩) (by rw [List.mem_append, not_or]; exact ⟨hw, hX'⟩) h
    exact ⟨h1, List.append_cancel_left h2⟩
  have assoc : ∀ R S L V : Str, R ++ (", Solver: ".toList ++ (S ++ (", Lambda_reg: ".toList ++ (L ++ (", LEDSA ".toList ++ V))))) =
      ((R ++ (", Solver: ".toList ++ S)) ++ (", Lambda_reg: ".toList ++ L)) ++ (", LEDSA ".toList ++ V) := by
    intro R S L V
    simp only [List.append_assoc]
  rw [assoc, assoc] at h
  obtain ⟨h, e1⟩ := step " LEDSA ".toList (by decide) hV hV' h
  obtain ⟨h, e2⟩ := step " Lambda_reg: ".toList (by decide) hL hL' h
  obtain ⟨h, e3⟩ := step " Solver: ".toList (by decide) hS hS' h
  exact ⟨h, e3, e2, e1⟩

/-- **C165 (the head).** The four lines of the head that describe the analysis are equal for two analyses if and only if the documented
settings are. -/
theorem C165_documented_iff {fl : HeadFloat F} (hfl : fl.Good) (a b : RunSettings F) (ha : a.Plain) (hb : b.Plain) :
    (a.head fl).about = (b.head fl).about ↔ SameDocumented a b := by
  constructor
  · intro h
    have nd : ∀ n : ℕ, ',' ∉ natStr n := fun n => natStr_notMem n ',' (by decide)
    simp only [CoeffHeader.about, RunSettings.head, List.cons.injEq, and_true] at h
    obtain ⟨h1, h2, h3, h4⟩ := h
    simp only [List.append_assoc, List.append_cancel_left_eq] at h1 h2 h3 h4
    have c : ∀ s : Str, ", led_array: ".toList ++ s = ',' :: (" led_array: ".toList ++ s) := fun s => rfl
    have c2 : ∀ s : Str, ", bottom_border: ".toList ++ s = ',' :: (" bottom_border: ".toList ++ s) := fun s => rfl
    have c3 : ∀ s : Str, ", top_border: ".toList ++ s = ',' :: (" top_border: ".toList ++ s) := fun s => rfl
    have c4 : ∀ s : Str, ", ".toList ++ s = ',' :: (" ".toList ++ s) := fun s => rfl
    have c5 : ∀ s : Str, ", Ref_img_indices: ".toList ++ s = ',' :: (" Ref_img_indices: ".toList ++ s) := fun s => rfl
    rw [c, c] at h1
    obtain ⟨e1, h1⟩ := field_first (nd _) (nd _) h1
    have e2 := List.append_cancel_left h1
    rw [c2, c2, c3, c3] at h2
    obtain ⟨e3, h2⟩ := field_first (nd _) (nd _) h2
    have h2 := List.append_cancel_left h2
    obtain ⟨e4, h2⟩ := field_first (hfl.chars _).1 (hfl.chars _).1 h2
    have e5 := List.append_cancel_left h2
    rw [c4, c4, c4, c4] at h3
    obtain ⟨e6, h3⟩ := field_first (hfl.chars _).1 (hfl.chars _).1 h3
    have h3 := List.append_cancel_left h3
    obtain ⟨e7, h3⟩ := field_first (hfl.chars _).1 (hfl.chars _).1 h3
    have e8 := List.append_cancel_right (List.append_cancel_left h3)
    rw [c5, c5] at h4
    obtain ⟨e9, h4⟩ := field_first ha.property.1 hb.property.1 h4
    have h4 := List.append_cancel_left h4
    obtain ⟨e10, e11, e13, e12⟩ := tail_fields (name_noComma _) (name_noComma _) (lamText_noComma hfl _) (lamText_noComma hfl _)
      ha.version.1 hb.version.1 h4
    refine ⟨natStr_injective e1, natStr_injective e2, natStr_injective e3, hfl.inj _ _ e4, hfl.inj _ _ e5, hfl.inj _ _ e6, hfl.inj _ _ e7,
      hfl.inj _ _ e8, e9, refsText_inj e10, ?_, e12⟩
    generalize a.solver = x at e11 e13
    generalize b.solver = y at e11 e13
    cases x with
    | linear l => cases y with
      | linear m => rw [hfl.inj _ _ e13]; exact .linear m
      | nonlinear c p n => exact absurd e11 (by decide : "linear".toList ≠ "nonlinear".toList)
    | nonlinear c p n => cases y with
      | linear m => exact absurd e11 (by decide : "nonlinear".toList ≠ "linear".toList)
      | nonlinear c' p' n' => exact .nonlinear ..
  · rintro ⟨h1, h2, h3, h4, h5, h6, h7, h8, h9, h10, h11, h12⟩
    have hn : a.solver.name = b.solver.name ∧ a.solver.lamText fl = b.solver.lamText fl := by
      generalize a.solver = x at h11
      generalize b.solver = y at h11
      cases h11 <;> exact ⟨rfl, rfl⟩
    simp only [CoeffHeader.about, RunSettings.head, h1, h2, h3, h4, h5, h6, h7, h8, h9, h10, h12, hn.1, hn.2]

theorem refsText_noLine (r : Option (List ℤ)) : '\n' ∉ refsText r := by
  cases r with
  | none => exact (by decide : '\n' ∉ "None".toList)
  | some l =>
    have : '\n' ∉ pyListStr.go l := by
      induction l with
      | nil => simp [pyListStr.go]
      | cons x l ih =>
        have hx : '\n' ∉ intStr x := fun hm => by
          have := intStr_chars x _ hm
          revert this; decide
        cases l with
        | nil => simpa [pyListStr.go] using hx
        | cons y l =>
          rw [pyListStr.go]
          · simp only [List.mem_append, not_or]
            exact ⟨⟨hx, by decide⟩, ih⟩
          · simp
    simp only [refsText, pyListStr, List.cons_append, List.mem_cons, List.mem_append, List.not_mem_nil, or_false, not_or]
    exact ⟨by decide, this, by decide⟩

theorem head_fields_noLine {fl : HeadFloat F} (hfl : fl.Good) (s : RunSettings F) (hs : s.Plain) : ∀ f ∈ (s.head fl).fields, '\n' ∉ f := by
  have nd : ∀ n : ℕ, '\n' ∉ natStr n := fun n => natStr_notMem n _ (by decide)
  have hname : '\n' ∉ s.solver.name := by
    cases s.solver with
    | linear => exact (by decide : '\n' ∉ "linear".toList)
    | nonlinear => exact (by decide : '\n' ∉ "nonlinear".toList)
  have hlam : '\n' ∉ s.solver.lamText fl := by
    cases s.solver with
    | linear lam => exact (hfl.chars lam).2
    | nonlinear => exact (by decide : '\n' ∉ "None".toList)
  intro f hf
  simp only [CoeffHeader.fields, RunSettings.head, List.mem_append, List.mem_cons, List.not_mem_nil, or_false, List.mem_map] at hf
  rcases hf with (((rfl | rfl | rfl | rfl | rfl | rfl | rfl | rfl | rfl | rfl | rfl | rfl | rfl) | ⟨x, _, rfl⟩) | ⟨x, _, rfl⟩) | ⟨x, _, rfl⟩
  · exact nd _
  · exact nd _
  · exact nd _
  · exact (hfl.chars _).2
  · exact (hfl.chars _).2
  · exact (hfl.chars _).2
  · exact (hfl.chars _).2
  · exact (hfl.chars _).2
  · exact hs.property.2
  · exact refsText_noLine _
  · exact hname
  · exact hlam
  · exact hs.version.2
  · exact (hfl.chars _).2
  · exact (hfl.chars _).2
  · exact (hfl.fixed _).2

/-- The lines of a file of coefficients. -/
theorem coeffText_lines (h : CoeffHeader) (hf : ∀ f ∈ h.fields, '\n' ∉ f) (n : ℕ) (rows : List (ℚ × List ℚ)) :
    splitChar '\n' (coeffText h n rows) = (h.about ++ h.heights ++ [columnLine n]).map ("# ".toList ++ ·) ++
      ((rows.map fun r => savetxtLine (r.1 :: r.2)) ++ [[]]) := by
  unfold coeffText
  rw [splitChar_textLines, List.append_assoc]
  intro l hl
  rw [List.mem_append] at hl
  rcases hl with hl | hl
  · obtain ⟨m, hm, rfl⟩ := List.mem_map.1 hl
    simp only [List.mem_append, not_or]
    refine ⟨by decide, ?_⟩
    rw [List.mem_append] at hm
    rcases hm with hm | hm
    · exact head_noLine h hf m hm
    · rw [List.mem_singleton] at hm
      rw [hm]
      exact columnLine_noLine n
  · obtain ⟨r, _, rfl⟩ := List.mem_map.1 hl
    exact savetxtLine_noLine _

/-- **C165 (the file).** Whoever has the file knows these settings: two files with the same text, whatever numbers they hold, were made with
the same documented settings. -/
theorem C165_known {fl : HeadFloat F} (hfl : fl.Good) (a b : RunSettings F) (ha : a.Plain) (hb : b.Plain) (n n' : ℕ)
    (rows rows' : List (ℚ × List ℚ)) (h : coeffText (a.head fl) n rows = coeffText (b.head fl) n' rows') : SameDocumented a b := by
  rw [← C165_documented_iff hfl a b ha hb]
  have h1 := congrArg (fun t => (splitChar '\n' t).take 4) h
  simp only [coeffText_lines _ (head_fields_noLine hfl a ha), coeffText_lines _ (head_fields_noLine hfl b hb)] at h1
  simp only [CoeffHeader.about, List.cons_append, List.nil_append, List.map_cons, List.take_succ_cons, List.take_zero, List.cons.injEq,
    List.append_cancel_left_eq, and_true] at h1
  simp only [CoeffHeader.about, h1]

/-- **C165 (nothing else).** Conversely the same documented settings and the same numbers give the same file, whatever the other settings
are: nothing else can be seen from it. -/
theorem C165_nothing_else {fl : HeadFloat F} (hfl : fl.Good) (a b : RunSettings F) (ha : a.Plain) (hb : b.Plain) (h : SameDocumented a b) (n : ℕ)
    (rows : List (ℚ × List ℚ)) : coeffText (a.head fl) n rows = coeffText (b.head fl) n rows := by
  have h1 := (C165_documented_iff hfl a b ha hb).2 h
  have h2 : (a.head fl).heights = (b.head fl).heights := by
    simp only [CoeffHeader.heights, RunSettings.head, h.amount, h.bottom, h.top]
  unfold coeffText
  rw [h1, h2]

/-- **C165 (heights).** The lines five to seven give the borders of the layers and their centres, one field per layer. -/
theorem C165_heights {fl : HeadFloat F} (hfl : fl.Good) (s : RunSettings F) (hs : s.Plain)
    (hb : 2 ≤ (fl.borders s.amount s.bottom s.top).length) (n : ℕ) (rows : List (ℚ × List ℚ)) :
    let b := fl.borders s.amount s.bottom s.top
    ((splitChar '\n' (coeffText (s.head fl) n rows))[4]?).map (splitChar ',') = some ("# Layer_bottom_height[m]".toList :: b.dropLast.map fl.str) ∧
    ((splitChar '\n' (coeffText (s.head fl) n rows))[5]?).map (splitChar ',') = some ("# Layer_top_height[m]".toList :: b.tail.map fl.str) ∧
    ((splitChar '\n' (coeffText (s.head fl) n rows))[6]?).map (splitChar ',') =
      some ("# Layer_center_height[m]".toList :: (b.dropLast.zipWith fl.mid b.tail).map fl.fixed2) := by
  intro b
  replace hb : 2 ≤ b.length := hb
  have key : ∀ (w : Str) (fs : List Str), ',' ∉ w → fs ≠ [] → (∀ f ∈ fs, ',' ∉ f) →
      splitChar ',' (w ++ (',' :: joinChar ',' fs)) = w :: fs := by
    intro w fs hw hne hfs
    rw [splitChar_append hw, splitChar_joinChar hne hfs]
  have hd : b.dropLast ≠ [] := by
    intro h0; have := congrArg List.length h0; rw [List.length_dropLast, List.length_nil] at this; omega
  have ht : b.tail ≠ [] := by
    intro h0; have := congrArg List.length h0; rw [List.length_tail, List.length_nil] at this; omega
  have hz : b.dropLast.zipWith fl.mid b.tail ≠ [] := by
    intro h0; have := congrArg List.length h0; rw [List.length_zipWith, List.length_dropLast, List.length_tail, List.length_nil] at this; omega
  have hm : ∀ l : List F, ∀ f ∈ l.map fl.str, ',' ∉ f := by
    intro l f hf
    obtain ⟨x, _, rfl⟩ := List.mem_map.1 hf
    exact (hfl.chars x).1
  rw [coeffText_lines _ (head_fields_noLine hfl s hs)]
  refine ⟨?_, ?_, ?_⟩
  · exact congrArg some (key "# Layer_bottom_height[m]".toList (b.dropLast.map fl.str) (by decide) (fun e => hd (List.map_eq_nil_iff.1 e)) (hm _))
  · exact congrArg some (key "# Layer_top_height[m]".toList (b.tail.map fl.str) (by decide) (fun e => ht (List.map_eq_nil_iff.1 e)) (hm _))
  · refine congrArg some (key "# Layer_center_height[m]".toList ((b.dropLast.zipWith fl.mid b.tail).map fl.fixed2) (by decide) (fun e => hz (List.map_eq_nil_iff.1 e)) ?_)
    intro f hf
    obtain ⟨x, _, rfl⟩ := List.mem_map.1 hf
    exact (hfl.fixed x).1

/-- Whole numbers as floating point numbers, for examples. -/
def wholeFloat : HeadFloat ℤ :=
  ⟨fun z => intStr z ++ ".0".toList, fun z => intStr z ++ ".00".toList, fun n a b => (List.range (n + 1)).map fun i => a + (b - a) / n * i, fun a b => (a + b) / 2⟩

/-- Settings with the given solver and number of reference images. -/
def someSettings (solver : HeadSolver ℤ) (numRef : ℕ) : RunSettings ℤ :=
  ⟨0, 3, 2, 1, 3, 7, 6, 2, "sum_col_val".toList, numRef, none, false, true, solver, "2.0".toList⟩

theorem wholeFloat_good : wholeFloat.Good where
  inj x y h := intStr_inj (List.append_cancel_right h)
  chars x := by
    have h : ∀ c : Char, isNumChar c = false → c ∉ intStr x := fun c hc hm => by
      rw [intStr_chars x c hm] at hc; cases hc
    constructor
    · simp only [wholeFloat, List.mem_append, not_or]; exact ⟨h _ (by decide), by decide⟩
    · simp only [wholeFloat, List.mem_append, not_or]; exact ⟨h _ (by decide), by decide⟩
  none x h := by
    have h1 : (wholeFloat.str x).getLast? = some 'e' := by rw [h]; decide
    revert h1
    simp [wholeFloat]
  fixed x := by
    have h : ∀ c : Char, isNumChar c = false → c ∉ intStr x := fun c hc hm => by
      rw [intStr_chars x c hm] at hc; cases hc
    constructor
    · simp only [wholeFloat, List.mem_append, not_or]; exact ⟨h _ (by decide), by decide⟩
    · simp only [wholeFloat, List.mem_append, not_or]; exact ⟨h _ (by decide), by decide⟩

theorem someSettings_plain (s : HeadSolver ℤ) (n : ℕ) : (someSettings s n).Plain :=
  ⟨⟨(by decide : ',' ∉ "sum_col_val".toList), (by decide : '\n' ∉ "sum_col_val".toList)⟩,
    ⟨(by decide : ',' ∉ "2.0".toList), (by decide : '\n' ∉ "2.0".toList)⟩⟩

/-- **C165 (refuted: reference images).** The number of reference images, the usual way to choose them, cannot be seen: files made with one
and with two reference images have the same head, but measured values are divided by different reference values. -/
theorem C165_references_false : ¬ ∀ (a b : RunSettings ℤ) (n : ℕ) (rows : List (ℚ × List ℚ)), a.Plain → b.Plain →
    coeffText (a.head wholeFloat) n rows = coeffText (b.head wholeFloat) n rows →
    ∀ t : ImgData ℚ, refIntensities a.refChoice t = refIntensities b.refChoice t := by
  intro h
  have h1 := C165_nothing_else wholeFloat_good (someSettings (.linear 1) 1) (someSettings (.linear 1) 2) (someSettings_plain _ _)
    (someSettings_plain _ _) ⟨rfl, rfl, rfl, rfl, rfl, rfl, rfl, rfl, rfl, rfl, .linear 1, rfl⟩ 2 []
  have := h _ _ 2 [] (someSettings_plain _ _) (someSettings_plain _ _) h1 [(1, 0, 100), (2, 0, 80)]
  revert this
  decide +kernel

/-- **C165 (refuted: nonlinear solver).** None of the parameters of the nonlinear solver can be seen. -/
theorem C165_weights_false (c p c' p' : ℤ) (k k' n : ℕ) (rows : List (ℚ × List ℚ)) :
    coeffText ((someSettings (.nonlinear c p k) 10).head wholeFloat) n rows = coeffText ((someSettings (.nonlinear c' p' k') 10).head wholeFloat) n rows :=
  C165_nothing_else wholeFloat_good _ _ (someSettings_plain _ _) (someSettings_plain _ _)
    ⟨rfl, rfl, rfl, rfl, rfl, rfl, rfl, rfl, rfl, rfl, .nonlinear .., rfl⟩ n rows

/-- The head of a file. -/
example : ((someSettings (.linear 1) 10).head wholeFloat).about = ["channel: 0, led_array: 3".toList,
    "num_of_layers: 2, bottom_border: 1.0, top_border: 3.0".toList, "Camera: (7.0, 6.0, 2.0)".toList,
    "Reference_property: sum_col_val, Ref_img_indices: None, Solver: linear, Lambda_reg: 1.0, LEDSA 2.0".toList] ∧
    ((someSettings (.nonlinear 1 2 3) 10).head wholeFloat).heights = ["Layer_bottom_height[m],1.0,2.0".toList,
      "Layer_top_height[m],2.0,3.0".toList, "Layer_center_height[m],1.00,2.00".toList] := by
  refine ⟨?_, ?_⟩ <;> decide +kernel

/-- **C165 (reference images used).** Exactly the images of the list are used, without a list those up to the given number. -/
theorem C165_used {F : Type} (s : RunSettings F) (i : ℕ) :
    s.refChoice.selects i = true ↔ match s.refs with
      | some l => (i : ℤ) ∈ l
      | none => i ≤ s.numRef := by
  unfold RunSettings.refChoice
  cases s.refs with
  | none => simp [RefChoice.selects]
  | some l =>
    simp only [RefChoice.selects, List.contains_iff_mem, List.mem_map, List.mem_filter, decide_eq_true_eq]
    constructor
    · rintro ⟨x, ⟨h1, h2⟩, h3⟩
      have : (i : ℤ) = x := by omega
      rwa [this]
    · intro h
      exact ⟨i, ⟨h, by omega⟩, by omega⟩

/-- Two reference images by their numbers. -/
example : ((List.range 5).filter ({ someSettings (.linear 1) 10 with refs := some [3, 1] } : RunSettings ℤ).refChoice.selects) = [1, 3] := by
  decide +kernel

end Ledsa
