import Verif.Model.Heights

/-!
# LED parameters by height (C121)
-/

namespace Ledsa

theorem mem_lastOfKey (rows : List HRow) (r : HRow) :
    r ∈ lastOfKey rows ↔ ∃ l₁ l₂, rows = l₁ ++ r :: l₂ ∧ ∀ s ∈ l₂, s.key ≠ r.key := by
  induction rows with
  | nil => simp [lastOfKey]
  | cons a t ih =>
    have step : (∃ l₁ l₂, a :: t = l₁ ++ r :: l₂ ∧ ∀ s ∈ l₂, s.key ≠ r.key) ↔
        (a = r ∧ ∀ s ∈ t, s.key ≠ r.key) ∨ r ∈ lastOfKey t := by
      rw [ih]
      constructor
      · rintro ⟨l₁, l₂, h, h2⟩
        cases l₁ with
        | nil =>
          simp only [List.nil_append, List.cons.injEq] at h
          exact .inl ⟨h.1, h.2 ▸ h2⟩
        | cons b l₁ =>
          simp only [List.cons_append, List.cons.injEq] at h
          exact .inr ⟨l₁, l₂, h.2, h2⟩
      · rintro (⟨rfl, h⟩ | ⟨l₁, l₂, rfl, h⟩)
        · exact ⟨[], t, rfl, h⟩
        · exact ⟨a :: l₁, l₂, rfl, h⟩
    rw [step, lastOfKey]
    split_ifs with hk
    · constructor
      · exact .inr
      · rintro (⟨rfl, h⟩ | h)
        · obtain ⟨s, hs, e⟩ := List.mem_map.1 hk
          exact absurd e (h s hs)
        · exact h
    · rw [List.mem_cons]
      constructor
      · rintro (rfl | h)
        · exact .inl ⟨rfl, fun s hs e => hk (List.mem_map.2 ⟨s, hs, e⟩)⟩
        · exact .inr h
      · rintro (⟨rfl, _⟩ | h)
        · exact .inl rfl
        · exact .inr h

theorem lastOfKey_keys (rows : List HRow) : ((lastOfKey rows).map HRow.key).Nodup := by
  induction rows with
  | nil => simp [lastOfKey]
  | cons a t ih =>
    unfold lastOfKey
    split_ifs with hk
    · exact ih
    · rw [List.map_cons, List.nodup_cons]
      refine ⟨fun h => hk ?_, ih⟩
      obtain ⟨s, hs, e⟩ := List.mem_map.1 h
      obtain ⟨l₁, l₂, rfl, _⟩ := (mem_lastOfKey t s).1 hs
      exact List.mem_map.2 ⟨s, by simp, e⟩

theorem removeDup_perm (rows : List HRow) : (removeDuplicateHeights rows).Perm (lastOfKey rows) := List.perm_insertionSort _ _

/-- **C121.** What remains: the rows after which no row of the same time and height follows, ordered by time. -/
theorem C121_kept (rows : List HRow) :
    (∀ r, r ∈ removeDuplicateHeights rows ↔ ∃ l₁ l₂, rows = l₁ ++ r :: l₂ ∧ ∀ s ∈ l₂, ¬(s.time = r.time ∧ s.height = r.height)) ∧
    ((removeDuplicateHeights rows).map fun r => (r.time, r.height)).Nodup ∧
    (removeDuplicateHeights rows).Pairwise (fun a b => a.time ≤ b.time) := by
  refine ⟨fun r => ?_, ?_, ?_⟩
  · rw [(removeDup_perm rows).mem_iff, mem_lastOfKey]
    simp only [HRow.key, ne_eq, Prod.mk.injEq]
  · exact ((removeDup_perm rows).map HRow.key).nodup_iff.2 (lastOfKey_keys rows)
  · have h : (removeDuplicateHeights rows).Pairwise keyLe := by
      have : Std.Total keyLe := by
        refine ⟨fun a b => ?_⟩
        unfold keyLe
        rcases lt_trichotomy a.time b.time with h | h | h
        · exact .inl (.inl h)
        · rcases le_total a.height b.height with h' | h'
          · exact .inl (.inr ⟨h, h'⟩)
          · exact .inr (.inr ⟨h.symm, h'⟩)
        · exact .inr (.inl h)
      have : IsTrans HRow keyLe := ⟨fun a b c h1 h2 => by
        unfold keyLe at *
        rcases h1 with h1 | ⟨h1, h1'⟩ <;> rcases h2 with h2 | ⟨h2, h2'⟩
        · exact .inl (h1.trans h2)
        · exact .inl (h2 ▸ h1)
        · exact .inl (h1 ▸ h2)
        · exact .inr ⟨h1.trans h2, h1'.trans h2'⟩⟩
      exact List.pairwise_insertionSort keyLe _
    refine h.imp fun {a b} hab => ?_
    rcases hab with h | h
    · exact h.le
    · exact h.1.le

theorem filter_keys_nodup {rows : List HRow} (h : (rows.map HRow.key).Nodup) (p : HRow → Bool) (delta : ℤ) (f : HRow → Option ℚ) :
    ((((rows.filter p).map fun r => (r.time + delta, r.height, f r))).map fun r => (r.1, r.2.1)).Nodup := by
  have h1 : ((rows.filter p).map HRow.key).Nodup := h.sublist (List.filter_sublist.map _)
  have e : (((rows.filter p).map fun r => (r.time + delta, r.height, f r))).map (fun r => (r.1, r.2.1)) =
      ((rows.filter p).map HRow.key).map fun k => (k.1 + delta, k.2) := by
    rw [List.map_map, List.map_map]; rfl
  rw [e]
  refine h1.map ?_
  rintro ⟨a, b⟩ ⟨c, d⟩ hcd
  simp only [Prod.mk.injEq] at hcd ⊢
  exact ⟨by omega, hcd.2⟩

/-- **C121.** After the removal the request by height always succeeds; absolute values are those of the remaining rows. -/
theorem C121_request (numRef : ℕ) (nRef : Option ℕ) (delta : ℤ) (array : ℕ) (rows : List HRow) :
    ∃ t, ledParamsByHeight numRef nRef delta array (removeDuplicateHeights rows) = .ok t ∧
      (nRef = some 0 → ∀ time h v, (time, h, v) ∈ t ↔
        ∃ r ∈ removeDuplicateHeights rows, r.array = array ∧ r.time + delta = time ∧ r.height = h ∧ v = some r.val) := by
  have hk := (C121_kept rows).2.1
  unfold ledParamsByHeight
  simp only
  cases hr : refNumber numRef nRef with
  | none =>
    simp only
    unfold pivotHeights
    rw [if_pos (filter_keys_nodup hk _ _ _)]
    refine ⟨_, rfl, fun _ time h v => ?_⟩
    rw [List.mem_map]
    constructor
    · rintro ⟨r, hr, e⟩
      rw [List.mem_filter] at hr
      simp only [Prod.mk.injEq] at e
      exact ⟨r, hr.1, by simpa using hr.2, e.1, e.2.1, e.2.2.symm⟩
    · rintro ⟨r, hr, ha, ht, hh, hv⟩
      exact ⟨r, List.mem_filter.2 ⟨hr, by simpa using ha⟩, by rw [ht, hh, hv]⟩
  | some n =>
    simp only
    unfold pivotHeights
    rw [if_pos (filter_keys_nodup hk _ _ _)]
    refine ⟨_, rfl, fun h => ?_⟩
    subst h
    simp [refNumber] at hr

/-- Every image, LED array and height that has a row in the first table has one in the second. -/
def KeepsHeights (before after : List HRow) : Prop :=
  ∀ r ∈ before, ∃ s ∈ after, s.img = r.img ∧ s.array = r.array ∧ s.height = r.height

/-- The last row with the key of a row. -/
theorem last_exists (rows : List HRow) : ∀ r ∈ rows, ∃ s ∈ lastOfKey rows, s.key = r.key := by
  induction rows with
  | nil => simp
  | cons a t ih =>
    intro r hr
    unfold lastOfKey
    split_ifs with hk
    · rcases List.mem_cons.1 hr with rfl | h
      · obtain ⟨s, hs, e⟩ := List.mem_map.1 hk
        obtain ⟨s', hs', e'⟩ := ih s hs
        exact ⟨s', hs', e'.trans e⟩
      · exact ih r h
    · rcases List.mem_cons.1 hr with rfl | h
      · exact ⟨r, by simp, rfl⟩
      · obtain ⟨s, hs, e⟩ := ih r h
        exact ⟨s, List.mem_cons_of_mem _ hs, e⟩

/-- **C121 (partial).** Exactly when nothing else is lost: if rows of different images or different LED arrays never have the same
time and height. -/
theorem C121_partial (rows : List HRow) (himg : ∀ r ∈ rows, ∀ s ∈ rows, r.img = s.img → r.time = s.time) :
    KeepsHeights rows (removeDuplicateHeights rows) ↔
      ∀ r ∈ rows, ∀ s ∈ rows, r.time = s.time → r.height = s.height → r.img = s.img ∧ r.array = s.array := by
  have hsub : ∀ r ∈ removeDuplicateHeights rows, r ∈ rows := by
    intro r hr
    obtain ⟨l₁, l₂, rfl, _⟩ := ((C121_kept rows).1 r).1 hr
    simp
  have hinj : ∀ r ∈ removeDuplicateHeights rows, ∀ s ∈ removeDuplicateHeights rows, r.key = s.key → r = s := by
    intro r hr s hs e
    exact List.inj_on_of_nodup_map (C121_kept rows).2.1 hr hs e
  constructor
  · intro h r hr s hs ht hh
    obtain ⟨r', hr', e1, e2, e3⟩ := h r hr
    obtain ⟨s', hs', f1, f2, f3⟩ := h s hs
    have tr := himg r' (hsub r' hr') r hr e1
    have ts := himg s' (hsub s' hs') s hs f1
    have : r' = s' := hinj r' hr' s' hs' (by unfold HRow.key; rw [tr, ts, ht, e3, f3, hh])
    subst this
    exact ⟨e1.symm.trans f1, e2.symm.trans f2⟩
  · intro h r hr
    obtain ⟨s, hs, e⟩ := last_exists rows r hr
    have hs' := (removeDup_perm rows).mem_iff.2 hs
    unfold HRow.key at e
    simp only [Prod.mk.injEq] at e
    obtain ⟨h1, h2⟩ := h s (hsub s hs') r hr e.1 e.2
    exact ⟨s, hs', h1, h2, e.2⟩

/-- **C121 is false in general.** Two LED arrays side by side with LEDs at the same heights: of the first array nothing remains. -/
theorem C121_false : ∃ rows : List HRow, (∀ r ∈ rows, ∀ s ∈ rows, r.img = s.img → r.time = s.time) ∧
    ¬ KeepsHeights rows (removeDuplicateHeights rows) ∧
    (∃ t, ledParamsByHeight 1 none 0 0 rows = .ok t ∧ t.length = 4) ∧
    ledParamsByHeight 1 none 0 0 (removeDuplicateHeights rows) = .ok [] := by
  refine ⟨[⟨0, 1, 1, 0, 0, 100⟩, ⟨0, 1, 2, 1, 0, 110⟩, ⟨0, 1, 1, 2, 1, 120⟩, ⟨0, 1, 2, 3, 1, 130⟩,
    ⟨1, 2, 1, 0, 0, 90⟩, ⟨1, 2, 2, 1, 0, 95⟩, ⟨1, 2, 1, 2, 1, 60⟩, ⟨1, 2, 2, 3, 1, 65⟩], by decide, ?_, ⟨_, rfl, by decide⟩, by decide⟩
  intro h
  obtain ⟨s, hs, _, h2, _⟩ := h ⟨0, 1, 1, 0, 0, 100⟩ (by decide)
  revert s
  decide

/-- Two images taken in the same second: of the first nothing remains. -/
theorem C121_second_false : ∃ rows : List HRow, (∀ r ∈ rows, r.array = 0) ∧ (∃ r ∈ rows, r.img = 1) ∧
    ∀ r ∈ removeDuplicateHeights rows, r.img ≠ 1 :=
  ⟨[⟨0, 1, 1, 0, 0, 100⟩, ⟨0, 1, 2, 1, 0, 110⟩, ⟨0, 2, 1, 0, 0, 90⟩, ⟨0, 2, 2, 1, 0, 95⟩], by decide, by decide, by decide⟩

/-- Without the removal a request by height fails exactly if two rows of the array have the same time and height. -/
theorem C121_raw (numRef : ℕ) (nRef : Option ℕ) (delta : ℤ) (array : ℕ) (rows : List HRow) :
    ledParamsByHeight numRef nRef delta array rows = .error .valueError ↔
      ¬ (rows.filter fun r => r.array = array).Pairwise fun r s => ¬(r.time = s.time ∧ r.height = s.height) := by
  have key : ∀ f : HRow → Option ℚ, ((((rows.filter fun r => r.array = array).map fun r => (r.time + delta, r.height, f r))).map
      fun r => (r.1, r.2.1)).Nodup ↔
      (rows.filter fun r => r.array = array).Pairwise fun r s => ¬(r.time = s.time ∧ r.height = s.height) := by
    intro f
    rw [List.map_map, List.Nodup, List.pairwise_map]
    constructor <;> refine fun h => h.imp fun {a b} hab => ?_
    · rintro ⟨e1, e2⟩
      exact hab (by simp [e1, e2])
    · intro e
      simp only [Function.comp, Prod.mk.injEq] at e
      exact hab ⟨by omega, e.2⟩
  unfold ledParamsByHeight
  simp only
  cases refNumber numRef nRef <;> simp only [pivotHeights, key] <;> split_ifs with h <;> simp only [h, reduceCtorEq, not_true_eq_false, not_false_eq_true]

/-- **C121.** What is returned for an LED array depends on its own rows only, also the reference of relative values. -/
theorem C121_other_arrays (numRef : ℕ) (nRef : Option ℕ) (delta : ℤ) (array : ℕ) (rows rows' : List HRow)
    (h : (rows.filter fun r => r.array = array) = rows'.filter fun r => r.array = array) :
    ledParamsByHeight numRef nRef delta array rows = ledParamsByHeight numRef nRef delta array rows' := by
  unfold ledParamsByHeight
  simp only
  rw [h]

/-! ### Examples -/

/-- Two rows of one array at the same height: the later one remains. -/
example : removeDuplicateHeights [⟨5, 1, 2, 0, 0, 100⟩, ⟨5, 1, 1, 1, 0, 110⟩, ⟨5, 1, 2, 2, 0, 120⟩] =
    [⟨5, 1, 1, 1, 0, 110⟩, ⟨5, 1, 2, 2, 0, 120⟩] := by decide

example : ledParamsByHeight 1 none 0 0 [⟨5, 1, 2, 0, 0, 100⟩, ⟨5, 1, 1, 1, 0, 110⟩, ⟨5, 1, 2, 2, 0, 120⟩] = .error .valueError := by decide

/-- Relative values by height. -/
example : ledParamsByHeight 1 none 10 0 (removeDuplicateHeights [⟨5, 1, 2, 0, 0, 100⟩, ⟨6, 2, 2, 0, 0, 50⟩]) =
    .ok [(15, 2, some 1), (16, 2, some (1 / 2))] := by decide +kernel

end Ledsa
