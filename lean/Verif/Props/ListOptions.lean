import Verif.Props.AnalysisConfig
import Verif.Model.Extraction

/-!
# C54 for numbers of every kind

The list options of the analysis configuration with any conversion of the items, in particular decimal numbers (bounds of the
domain, position of the camera).
-/

namespace Ledsa

/-- `float(text)`. -/
def floatText (s : Str) : Except PyErr ℚ := match readFloat s with
  | some q => .ok q
  | none => .error .valueError

theorem toLower_cases (c x : Char) (h : c.toLower = x) : c = x ∨ c.toNat + 32 = x.toNat := by
  unfold Char.toLower at h
  split at h
  · rename_i hc
    right
    have := congrArg Char.toNat h
    rw [← this]
    simp only [Char.toNat]
    have h1 : c.val.toNat ≤ 90 := by
      have := hc.2
      exact this
    rw [UInt32.toNat_add]
    have : (('a'.val - 'A'.val : UInt32)).toNat = 32 := by decide
    rw [this]
    omega
  · left; exact h

theorem none_no_float (t : Str) (h : lower t = "none".toList) : readFloat t = none := by
  have hc : ∀ c x y : Char, c.toLower = x → y.toNat + 32 = x.toNat → c = x ∨ c = y := by
    intro c x y h1 h3
    rcases toLower_cases c x h1 with h | h
    · exact .inl h
    · right
      apply Char.ext
      apply UInt32.toNat_inj.1
      have h4 : c.toNat = y.toNat := by omega
      exact h4
  have hl := congrArg List.length h
  simp only [lower, List.length_map] at hl
  match t, hl with
  | [a, b, c, d], _ =>
    have h' : [a.toLower, b.toLower, c.toLower, d.toLower] = ['n', 'o', 'n', 'e'] := h
    simp only [List.cons.injEq, and_true] at h'
    obtain ⟨h1, h2, h3, h4⟩ := h'
    rcases hc a 'n' 'N' h1 (by decide) with rfl | rfl <;>
      rcases hc b 'o' 'O' h2 (by decide) with rfl | rfl <;>
      rcases hc c 'n' 'N' h3 (by decide) with rfl | rfl <;>
      rcases hc d 'e' 'E' h4 (by decide) with rfl | rfl <;> decide

/-- **C54.** Whatever the conversion of the items: tokens that can be read are returned in order, whatever white space surrounds
and separates them. -/
theorem C54_any_list {α : Type} (conv : Str → Except PyErr α) (hnone : ∀ t, lower t = "none".toList → ∃ e, conv t = .error e)
    (raw lead : Str) (hl : ∀ c ∈ lead, isWs c = true) (ts : List ((Str × Str) × α)) (hne : ts ≠ [])
    (h : ∀ p ∈ ts, p.1.1 ≠ [] ∧ (∀ c ∈ p.1.1, isWs c = false) ∧ p.1.2 ≠ [] ∧ ∀ c ∈ p.1.2, isWs c = true)
    (hc : ∀ p ∈ ts, conv p.1.1 = .ok p.2) (hraw : strip raw = strip (lead ++ spaced (ts.map (·.1)))) :
    listValue conv (some raw) = some (ts.map (·.2)) := by
  have hs : splitWs raw = ts.map (·.1.1) := by
    rw [← splitWs_strip, hraw, splitWs_strip, splitWs_spaced lead hl]
    · rw [List.map_map]; rfl
    · intro p hp
      obtain ⟨q, hq, rfl⟩ := List.mem_map.1 hp
      exact h q hq
  rw [listValue_some]
  refine ⟨raw, rfl, ?_, ?_, ?_⟩
  · intro he
    rw [← splitWs_strip, he] at hs
    have : ts = [] := by simpa [splitWs, splitWsAux] using hs.symm
    exact hne this
  · intro he
    obtain ⟨h1, _⟩ := lower_none_tokens _ he
    rw [splitWs_strip, hs] at h1
    obtain ⟨p, rest, rfl⟩ := List.exists_cons_of_ne_nil hne
    simp only [List.map_cons, List.cons.injEq] at h1
    obtain ⟨e, he'⟩ := hnone _ he
    have := hc p (by simp)
    rw [h1.1, he'] at this
    cases this
  · rw [hs]
    clear hs hraw hne h
    induction ts with
    | nil => exact .nil
    | cons p ts ih => exact .cons (hc p (by simp)) (ih fun q hq => hc q (by simp [hq]))

/-- **C54.** Lists of decimal numbers, as for the bounds of the domain and the position of the camera. -/
theorem C54_floats (raw lead : Str) (hl : ∀ c ∈ lead, isWs c = true) (ts : List ((Str × Str) × ℚ)) (hne : ts ≠ [])
    (h : ∀ p ∈ ts, p.1.1 ≠ [] ∧ (∀ c ∈ p.1.1, isWs c = false) ∧ p.1.2 ≠ [] ∧ ∀ c ∈ p.1.2, isWs c = true)
    (hc : ∀ p ∈ ts, readFloat p.1.1 = some p.2) (hraw : strip raw = strip (lead ++ spaced (ts.map (·.1)))) :
    listValue floatText (some raw) = some (ts.map (·.2)) := by
  apply C54_any_list floatText _ raw lead hl ts hne h _ hraw
  · intro t ht
    exact ⟨.valueError, by unfold floatText; rw [none_no_float t ht]⟩
  · intro p hp
    unfold floatText; rw [hc p hp]

/-- **C54**, exact condition for any conversion: an option counts as not set iff it is missing, empty, `None`, or has an item that
cannot be read. -/
theorem C54_any_unset_iff {α : Type} (conv : Str → Except PyErr α) (v : Option Str) : listValue conv v = none ↔
    ∀ raw, v = some raw → strip raw = [] ∨ lower (strip raw) = "none".toList ∨ ∃ t ∈ splitWs raw, ∃ e, conv t = .error e := by
  cases v with
  | none => exact ⟨fun _ _ h => (by cases h), fun _ => rfl⟩
  | some raw =>
    constructor
    · rintro h _ ⟨⟩
      by_contra hc
      rw [not_or, not_or] at hc
      obtain ⟨h1, h2, h3⟩ := hc
      have hx : ∀ l : List Str, (∀ s ∈ l, ∀ e, conv s ≠ .error e) → ∃ xs, List.Forall₂ (fun t x => conv t = .ok x) l xs := by
        intro l
        induction l with
        | nil => exact fun _ => ⟨[], .nil⟩
        | cons s l ih =>
          intro hh
          obtain ⟨xs, hxs⟩ := ih fun t ht => hh t (by simp [ht])
          cases hs : conv s with
          | error e => exact absurd hs (hh s (by simp) e)
          | ok x => exact ⟨x :: xs, .cons hs hxs⟩
      obtain ⟨xs, hxs⟩ := hx (splitWs raw) fun s hs e he => h3 ⟨s, hs, e, he⟩
      have := (listValue_some conv (some raw) xs).2 ⟨raw, rfl, h1, h2, hxs⟩
      rw [h] at this
      cases this
    · intro h
      cases hv : listValue conv (some raw) with
      | none => rfl
      | some l =>
        obtain ⟨r, hr, h1, h2, h3⟩ := (listValue_some conv (some raw) l).1 hv
        cases hr
        rcases h raw rfl with h | h | ⟨t, ht, e, he⟩
        · exact absurd h h1
        · exact absurd h h2
        · exfalso
          clear hv h1 h2 h
          generalize splitWs raw = ls at h3 ht
          induction h3 with
          | nil => cases ht
          | cons ha _ ih =>
            rcases List.mem_cons.1 ht with rfl | ht
            · rw [he] at ha; cases ha
            · exact ih ht

example : listValue floatText (some "  0.5\t-3 2.5e-1 ".toList) = some [1/2, -3, 1/4] := by decide +kernel
example : listValue floatText (some "0.5, 3".toList) = none := by decide +kernel
example : listValue floatText (some "0.5 3m".toList) = none := by decide +kernel

end Ledsa
