import Verif.Props.Binary

/-!
# Which shape a table has when it is read (C153)
-/

namespace Ledsa

/-- A table as it is written: at least one row, all rows of the same number of fields, at least one. -/
def Rectangular (rows : List (List ℚ)) (k : ℕ) : Prop := rows ≠ [] ∧ 0 < k ∧ ∀ r ∈ rows, r.length = k

theorem loadtxt_row (r : List ℚ) (h : 2 ≤ r.length) : loadtxt [r] = .ok (.vec r) := by
  match r, h with
  | a :: b :: r', _ => simp [loadtxt]

theorem loadtxt_column (r : List ℚ) (rows : List (List ℚ)) (hr : r.length = 1) (hne : rows ≠ []) (h : ∀ s ∈ rows, s.length = 1) :
    loadtxt (r :: rows) = .ok (.vec (r :: rows).flatten) := by
  match r, hr, rows, hne with
  | [x], _, s :: rest, _ =>
    unfold loadtxt
    simp only
    rw [if_pos (by simpa using h)]
    rfl

/-- **C153.** A file whose rows differ in the number of fields cannot be read, and only such a file. -/
theorem C153_fails_iff (rows : List (List ℚ)) (b : Bool) :
    (∃ e, readTable (some rows) b = .error e) ↔ ∃ r ∈ rows, ∃ s ∈ rows, r.length ≠ s.length := by
  unfold readTable
  match rows with
  | [] => simp [loadtxt, Except.map]
  | r :: rest =>
    simp only
    by_cases h : ∀ s ∈ rest, s.length = r.length
    · have hno : ¬ ∃ r' ∈ r :: rest, ∃ s ∈ r :: rest, r'.length ≠ s.length := by
        rintro ⟨x, hx, y, hy, hne⟩
        have aux : ∀ z ∈ r :: rest, z.length = r.length := by
          intro z hz
          rcases List.mem_cons.1 hz with rfl | hz
          · rfl
          · exact h z hz
        exact hne ((aux x hx).trans (aux y hy).symm)
      refine iff_of_false ?_ hno
      rintro ⟨e, he⟩
      have hok : ∃ a, loadtxt (r :: rest) = .ok a := by
        unfold loadtxt
        simp only [if_pos h]
        split <;> exact ⟨_, rfl⟩
      obtain ⟨a, ha⟩ := hok
      rw [ha] at he
      cases he
    · refine iff_of_true ?_ ?_
      · refine ⟨.valueError, ?_⟩
        unfold loadtxt
        simp only [if_neg h]
        rfl
      · push Not at h
        obtain ⟨s, hs, hne⟩ := h
        exact ⟨s, by simp [hs], r, by simp, hne⟩

/-- **C153.** With `atleast_2d` the rows of the file come back exactly for a single row and for tables with two columns or more … -/
theorem C153_rows_iff (rows : List (List ℚ)) (k : ℕ) (h : Rectangular rows k) :
    readTable (some rows) true = .ok (.mat rows) ↔ rows.length = 1 ∨ 2 ≤ k := by
  obtain ⟨hne, hk, hlen⟩ := h
  match rows, hne with
  | [r], _ =>
    have hr := hlen r (by simp)
    refine iff_of_true ?_ (Or.inl rfl)
    unfold readTable
    simp only
    rcases Nat.lt_or_ge r.length 2 with h2 | h2
    · match r, hr, h2 with
      | [], hr, _ => simp at hr; omega
      | [x], _, _ => rfl
      | _ :: _ :: _, _, h2 => simp at h2
    · rw [loadtxt_row r h2]
      rfl
  | r :: s :: rest, _ =>
    rcases Nat.lt_or_ge k 2 with h2 | h2
    · obtain rfl : k = 1 := by omega
      refine iff_of_false ?_ (by simp)
      unfold readTable
      simp only
      rw [loadtxt_column r (s :: rest) (hlen r (by simp)) (by simp) (fun x hx => hlen x (by simp only [List.mem_cons] at hx ⊢; tauto))]
      simp [Except.map, NpArr.atleast2d]
    · refine iff_of_true ?_ (Or.inr h2)
      exact readTable_mat _ (k - 2) (by simp) (fun x hx => by rw [hlen x hx]; omega) true

/-- **C153.** … and a single column of several rows comes back as one row. -/
theorem C153_column (rows : List (List ℚ)) (h : Rectangular rows 1) (h2 : 2 ≤ rows.length) :
    readTable (some rows) true = .ok (.mat [rows.flatten]) ∧ readTable (some rows) false = .ok (.vec rows.flatten) := by
  match rows, h2 with
  | r :: s :: rest, _ =>
    unfold readTable
    simp only
    rw [loadtxt_column r (s :: rest) (h.2.2 r (by simp)) (by simp) (fun x hx => h.2.2 x (by simp only [List.mem_cons] at hx ⊢; tauto))]
    exact ⟨rfl, rfl⟩

/-- **C153.** Without `atleast_2d` the rows come back exactly for two rows and two columns or more; otherwise all fields in one vector. -/
theorem C153_plain (rows : List (List ℚ)) (k : ℕ) (h : Rectangular rows k) :
    readTable (some rows) false = .ok (if 2 ≤ rows.length ∧ 2 ≤ k then .mat rows else .vec rows.flatten) := by
  have h' := h
  obtain ⟨hne, hk, hlen⟩ := h
  split_ifs with hc
  · exact readTable_mat _ (k - 2) hc.1 (fun x hx => by rw [hlen x hx]; omega) false
  · match rows, hne with
    | [r], _ =>
      have hr := hlen r (by simp)
      unfold readTable
      simp only
      rcases Nat.lt_or_ge r.length 2 with h2 | h2
      · match r, hr, h2 with
        | [], hr, _ => simp at hr; omega
        | [x], _, _ => rfl
        | _ :: _ :: _, _, h2 => simp at h2
      · rw [loadtxt_row r h2]
        simp [Except.map, NpArr.atleast1d]
    | r :: s :: rest, _ =>
      obtain rfl : k = 1 := by
        by_contra h1
        exact hc ⟨by simp, by omega⟩
      exact (C153_column _ h' (by simp)).2

/-- **C153.** No number of a rectangular table is lost or moved: the fields in order are the same, with both options. -/
theorem C153_fields (rows : List (List ℚ)) (k : ℕ) (h : Rectangular rows k) (b : Bool) :
    ∃ a, readTable (some rows) b = .ok a ∧ (match a with
      | .scalar x => [x]
      | .vec l => l
      | .mat m => m.flatten) = rows.flatten := by
  cases b with
  | false =>
    refine ⟨_, C153_plain rows k h, ?_⟩
    split_ifs <;> rfl
  | true =>
    by_cases hc : rows.length = 1 ∨ 2 ≤ k
    · exact ⟨_, (C153_rows_iff rows k h).2 hc, rfl⟩
    · push Not at hc
      have hk : k = 1 := by have := h.2.1; omega
      subst hk
      have hl : 2 ≤ rows.length := by
        have := List.length_pos_of_ne_nil h.1
        omega
      exact ⟨_, (C153_column rows h hl).1, by simp⟩

example : readTable (some [[1, 2], [3, 4]]) true = .ok (.mat [[1, 2], [3, 4]]) ∧ readTable (some [[1, 2]]) true = .ok (.mat [[1, 2]]) ∧
    readTable (some [[1], [2], [3]]) true = .ok (.mat [[1, 2, 3]]) ∧ readTable (some [[1, 2]]) false = .ok (.vec [1, 2]) ∧
    readTable (some [[1, 2], [3]]) true = .error .valueError ∧ readTable (some []) true = .ok (.mat [[]]) := by decide +kernel

end Ledsa
