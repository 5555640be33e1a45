import Verif.Model.Step3
import Verif.Props.SimData
import Verif.Model.SimParams

/-!
# Supplements to C26, C60 and C158 found by testing with wrong programs
-/

namespace Ledsa

theorem allValues_none {l : List (Option ℚ)} (h : none ∈ l) : allValues l = none := by
  induction l with
  | nil => exact absurd h (by simp)
  | cons x l ih =>
    cases x with
    | none => rfl
    | some v =>
      rw [allValues, ih (by simpa using h)]
      rfl

/-- **C60, missing values.** A missing value makes all smoothed values missing whose window contains it; it is not skipped. -/
theorem C60_missing (agg : List ℚ → ℚ) (w : ℕ) (hw : 2 ≤ w) (x : List (Option ℚ)) (i k : ℕ) (hi : i < x.length) (hk : x[k]? = some none)
    (h1 : i ≤ k + (w - w / 2)) (h2 : k ≤ i + (w / 2 - 1)) : (movingAverage agg w x)[i]? = some none := by
  unfold movingAverage shiftRows rolling
  rw [if_neg (by omega)]
  simp only [List.length_map, List.length_range, List.getElem?_map]
  rw [List.getElem?_range hi]
  simp only [Option.map_some]
  congr 1
  have e : ((i : ℤ) - (-((w / 2 : ℕ) : ℤ) + 1)).toNat = i + (w / 2 - 1) := by omega
  rw [if_neg (by omega), e]
  by_cases hj : i + (w / 2 - 1) < x.length
  · rw [List.getElem?_range hj]
    simp only [Option.map_some, Option.join_some]
    split
    · rfl
    · rename_i hp
      have hm : (none : Option ℚ) ∈ (x.drop (i + (w / 2 - 1) + 1 - w)).take w := by
        rw [List.mem_iff_getElem?]
        refine ⟨k - (i + (w / 2 - 1) + 1 - w), ?_⟩
        rw [List.getElem?_take_of_lt (by omega), List.getElem?_drop, show i + (w / 2 - 1) + 1 - w + (k - (i + (w / 2 - 1) + 1 - w)) = k by omega]
        exact hk
      rw [allValues_none hm]
      rfl
  · rw [List.getElem?_eq_none (by simp; omega)]
    rfl

example : movingAverage meanQ 2 [some 1, none, some 3, some 5, some 7] = [none, none, none, some 4, some 6] := by decide +kernel

/-- **C158, tables without heights.** LED parameters of a table without heights, or without the parameter asked for, are not delivered: the
request ends with `KeyError`. -/
theorem C158_missing_column (f : DataTable) (param : String) (infos : List InfoRow) (times : List ℤ) (ht : experimentTimes infos = .ok times)
    (h : "height" ∉ f.cols ∨ param ∉ f.cols) : ledParamTable f param infos = .error .keyError := by
  simp only [ledParamTable, ht, bind, Except.bind, if_pos h]

/-- **C26 (fits).** For which numbers of rows and columns of a search area the fit can be set up at all: none may be zero, and they are
equal or one of them is 1. -/
theorem C26_fit_shapes (a b : ℕ) : fitShapesOk (a, b) = .ok () ↔ a ≠ 0 ∧ b ≠ 0 ∧ (a = b ∨ a = 1 ∨ b = 1) := by
  unfold fitShapesOk broadcastable
  by_cases h0 : a = 0 ∨ b = 0
  · rw [if_pos h0]
    constructor
    · intro h; cases h
    · rintro ⟨h1, h2, -⟩; exact absurd h0 (by tauto)
  · rw [if_neg h0]
    split
    · rename_i h
      simp only [Bool.and_eq_true, Bool.or_eq_true, decide_eq_true_eq] at h
      exact ⟨fun _ => ⟨by tauto, by tauto, by tauto⟩, fun _ => rfl⟩
    · rename_i h
      simp only [Bool.and_eq_true, Bool.or_eq_true, decide_eq_true_eq] at h
      constructor
      · intro h; cases h
      · rintro ⟨-, -, h3⟩
        refine absurd ⟨?_, ?_⟩ h <;> tauto

end Ledsa
