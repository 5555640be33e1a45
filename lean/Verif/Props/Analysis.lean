import Verif.Model.Analysis
import Mathlib.Tactic.Linarith
import Mathlib.Tactic.NormNum
import Mathlib.Data.List.GetD
import Mathlib.Tactic.FinCases
import Verif.Props.Step2
import Mathlib.LinearAlgebra.Matrix.Determinant.Basic
/-
C50-C54: colour correction, averaged series, existing results, solver names, list options.
-/
namespace Ledsa
open Matrix

/-! ### C50 -/

theorem truncZero_int (z : ℤ) : truncZero (z : ℚ) = z := by
  unfold truncZero; split <;> simp

theorem mapM_option_some {α β : Type} (f : α → Option β) (g : α → β) :
    ∀ l : List α, (∀ a ∈ l, f a = some (g a)) → l.mapM f = some (l.map g)
  | [], _ => rfl
  | a :: t, h => by
    rw [List.mapM_cons, h a (by simp), mapM_option_some f g t (fun b hb => h b (by simp [hb]))]
    rfl

theorem mapM_option_none {α β : Type} (f : α → Option β) : ∀ l : List α, (∃ a ∈ l, f a = none) → l.mapM f = none
  | [], h => by simp at h
  | a :: t, h => by
    rw [List.mapM_cons]
    cases hf : f a with
    | none => rfl
    | some b =>
      have : ∃ a ∈ t, f a = none := by
        obtain ⟨c, hc, h2⟩ := h
        rcases List.mem_cons.1 hc with rfl | hc
        · rw [hf] at h2; cases h2
        · exact ⟨c, hc, h2⟩
      rw [mapM_option_none f t this]; rfl

/-- A 16 bit integer. -/
def Is16 (z : ℤ) : Prop := -32768 ≤ z ∧ z ≤ 32767

/-- The value stored for channel `c`, when every chosen channel has a column. -/
theorem applyCC_ok {n : ℕ} (to16 : Int16Cast) (M : Matrix (Fin n) (Fin n) ℚ) (hM : M.det ≠ 0) (channels : List ℕ)
    (hlen : channels.length = n) (hc : ∀ c ∈ channels, c < n) (raw : ℕ → ℤ) :
    applyCC to16 M channels raw = .ok (channels.map fun c =>
      (c, if h : c < n then to16.cast (∑ j : Fin n, M⁻¹ ⟨c, h⟩ j * (raw (channels.getD j 0) : ℚ)) else 0)) := by
  unfold applyCC
  rw [if_neg hM, if_neg (by simpa using hlen)]
  simp only
  rw [mapM_option_some _ (fun c => (c, if h : c < n then
    to16.cast (∑ j : Fin n, M⁻¹ ⟨c, h⟩ j * (raw (channels.getD j 0) : ℚ)) else 0))]
  intro c h
  have := hc c h
  rw [List.getElem?_ofFn, dif_pos this, dif_pos this]
  rfl

/-- With the identity matrix and any order of the channels `0 … n-1`, the value stored for channel `c` is the value of the
`c`-th channel in that order. -/
theorem C50_permuted {n : ℕ} (to16 : Int16Cast) (channels : List ℕ) (hlen : channels.length = n) (hc : ∀ c ∈ channels, c < n)
    (raw : ℕ → ℤ) (h16 : ∀ c ∈ channels, Is16 (raw c)) :
    applyCC to16 (1 : Matrix (Fin n) (Fin n) ℚ) channels raw =
      .ok (channels.map fun c => (c, raw (channels.getD c 0))) := by
  rw [applyCC_ok to16 1 (by simp) channels hlen hc]
  congr 1
  apply List.map_congr_left
  intro c h
  have hn := hc c h
  rw [dif_pos hn, inv_one]
  simp only [Matrix.one_apply, ite_mul, one_mul, zero_mul, Finset.sum_ite_eq, Finset.mem_univ, if_true]
  have hm : channels.getD c 0 ∈ channels := by
    rw [List.getD_eq_getElem _ _ (by omega)]; exact List.getElem_mem _
  have := h16 _ hm
  rw [to16.fits _ (by rw [truncZero_int]; exact this.1) (by rw [truncZero_int]; exact this.2), truncZero_int]

/-- Values mixed with an invertible matrix are restored, if they fit into 16 bits and the channels are `0 … n-1` in order.
Missing for the full claim: values outside 16 bits (`C50_overflow`), other orders (`C50_order_false`), other channels
(`C50_subset_fails`); all three are refuted. -/
theorem C50_restore_partial {n : ℕ} (to16 : Int16Cast) (M : Matrix (Fin n) (Fin n) ℚ) (hM : M.det ≠ 0)
    (orig raw : ℕ → ℤ) (h16 : ∀ c < n, Is16 (orig c))
    (hmix : ∀ i : Fin n, (raw i : ℚ) = ∑ j : Fin n, M i j * (orig j : ℚ)) :
    applyCC to16 M (List.range n) raw = .ok ((List.range n).map fun c => (c, orig c)) := by
  rw [applyCC_ok to16 M hM (List.range n) (by simp) (by simp)]
  congr 1
  apply List.map_congr_left
  intro c h
  have hn : c < n := by simpa using h
  rw [dif_pos hn]
  have key : ∑ j : Fin n, M⁻¹ ⟨c, hn⟩ j * (raw ((List.range n).getD j 0) : ℚ) = (orig c : ℚ) := by
    have e : ∀ j : Fin n, (raw ((List.range n).getD j 0) : ℚ) = (M.mulVec fun k : Fin n => (orig k : ℚ)) j := by
      intro j
      rw [List.getD_eq_getElem _ _ (by simp), List.getElem_range, hmix j]; rfl
    calc ∑ j : Fin n, M⁻¹ ⟨c, hn⟩ j * (raw ((List.range n).getD j 0) : ℚ)
        = (M⁻¹.mulVec (M.mulVec fun k : Fin n => (orig k : ℚ))) ⟨c, hn⟩ := by
          simp only [e]; rfl
      _ = (orig c : ℚ) := by
          rw [Matrix.mulVec_mulVec, Matrix.nonsing_inv_mul M (isUnit_iff_ne_zero.2 hM), Matrix.one_mulVec]
  have := h16 c hn
  rw [key, to16.fits _ (by rw [truncZero_int]; exact this.1) (by rw [truncZero_int]; exact this.2), truncZero_int]

/-- Exact range of the claim for the identity matrix: the sums are unchanged iff all of them fit into 16 bits. -/
theorem C50_overflow {n : ℕ} (to16 : Int16Cast) (raw : ℕ → ℤ) :
    applyCC to16 (1 : Matrix (Fin n) (Fin n) ℚ) (List.range n) raw = .ok ((List.range n).map fun c => (c, raw c)) ↔
      ∀ c < n, Is16 (raw c) := by
  constructor
  · intro h c hc
    rw [applyCC_ok to16 1 (by simp) (List.range n) (by simp) (by simp)] at h
    have h := List.map_inj_left.1 (Except.ok.inj h) c (by simpa using hc)
    rw [dif_pos hc] at h
    have := congrArg Prod.snd h
    simp only at this
    rw [← this]
    exact to16.range _
  · intro h
    rw [C50_permuted to16 (List.range n) (by simp) (by simp) raw (by simpa using h)]
    congr 1
    apply List.map_congr_left
    intro c hc
    have hn : c < n := by simpa using hc
    rw [List.getD_eq_getElem _ _ (by simpa using hn), List.getElem_range]

/-- Refuted for other channel orders: with `[1, 0]` the identity matrix exchanges the two channels. -/
theorem C50_order_false (to16 : Int16Cast) (raw : ℕ → ℤ) (h0 : Is16 (raw 0)) (h1 : Is16 (raw 1)) :
    applyCC to16 (1 : Matrix (Fin 2) (Fin 2) ℚ) [1, 0] raw = .ok [(1, raw 0), (0, raw 1)] := by
  rw [C50_permuted to16 [1, 0] rfl (by decide) raw (by simp [h0, h1])]
  rfl

/-- Refuted for other channels: a channel number not below the number of channels makes the correction fail. -/
theorem C50_subset_fails {n : ℕ} (to16 : Int16Cast) (M : Matrix (Fin n) (Fin n) ℚ) (hM : M.det ≠ 0) (channels : List ℕ)
    (hlen : channels.length = n) (hc : ∃ c ∈ channels, n ≤ c) (raw : ℕ → ℤ) :
    applyCC to16 M channels raw = .error .indexError := by
  unfold applyCC
  rw [if_neg hM, if_neg (by simpa using hlen)]
  simp only
  rw [mapM_option_none]
  obtain ⟨c, h, hn⟩ := hc
  refine ⟨c, h, ?_⟩
  rw [List.getElem?_ofFn, dif_neg (by omega)]
  rfl

/-- A matrix that cannot be inverted is rejected before anything is stored. -/
theorem C50_singular {n : ℕ} (to16 : Int16Cast) (M : Matrix (Fin n) (Fin n) ℚ) (hM : M.det = 0) (channels : List ℕ)
    (raw : ℕ → ℤ) : applyCC to16 M channels raw = .error .linAlgError := by
  unfold applyCC; rw [if_pos hM]

/-- Saturation is one possible conversion. -/
def satCast : Int16Cast where
  cast q := max (-32768) (min 32767 (truncZero q))
  fits q h1 h2 := by rw [min_eq_right h2, max_eq_right h1]
  range q := ⟨le_max_left _ _, max_le (by norm_num) (min_le_left _ _)⟩

/-- The values 5, 7 mixed with `[[1, 1], [0, 1]]`. -/
example : applyCC satCast !![(1 : ℚ), 1; 0, 1] [0, 1] (fun c => if c = 0 then 12 else 7) = .ok [(0, 5), (1, 7)] := by
  have := C50_restore_partial satCast !![(1 : ℚ), 1; 0, 1] (by simp [Matrix.det_fin_two]) (fun c => if c = 0 then 5 else 7)
    (fun c => if c = 0 then 12 else 7) (by intro c _; by_cases h : c = 0 <;> simp [h, Is16])
    (by intro i; fin_cases i <;> simp [Fin.sum_univ_two] <;> norm_num)
  exact this

/-- A sum of 40000 does not survive the identity. -/
example (to16 : Int16Cast) : applyCC to16 (1 : Matrix (Fin 1) (Fin 1) ℚ) (List.range 1) (fun _ => 40000) ≠ .ok [(0, 40000)] := by
  intro h
  have := (C50_overflow to16 (n := 1) (fun _ => 40000)).1 h 0 (by omega)
  exact absurd this.2 (by norm_num)

/-! ### C51 -/

theorem chunk2_flatten {α : Type} : ∀ l : List α, (chunk2 l).flatten = l
  | a :: b :: t => by simp [chunk2, chunk2_flatten t]
  | [a] => rfl
  | [] => rfl

theorem chunk2_length {α : Type} : ∀ l : List α, (chunk2 l).length = (l.length + 1) / 2
  | a :: b :: t => by simp only [chunk2, List.length_cons, chunk2_length t]; omega
  | [a] => by simp [chunk2]
  | [] => by simp [chunk2]

theorem chunk2_get {α : Type} : ∀ (l : List α) (k : ℕ), 2 * k < l.length → (chunk2 l)[k]? = some ((l.drop (2 * k)).take 2)
  | a :: b :: t, 0, _ => by simp [chunk2]
  | a :: b :: t, k + 1, h => by
    simp only [List.length_cons] at h
    rw [chunk2, List.getElem?_cons_succ, chunk2_get t k (by omega)]
    have : 2 * (k + 1) = 2 * k + 1 + 1 := by omega
    rw [this, List.drop_succ_cons, List.drop_succ_cons]
  | [a], 0, _ => rfl
  | [a], k + 1, h => by simp at h
  | [], k, h => by simp at h

/-- Number of rows of the averaged table. -/
theorem C51_rows (infos : List (Str × ℚ)) :
    (avgInfos infos).length = if infos.length ≤ 10 then infos.length else 10 + (infos.length - 9) / 2 := by
  simp only [avgInfos, List.length_append, List.length_take, List.length_map, chunk2_length, List.length_drop]
  split <;> omega

/-- Row `10 + k` of the averaged table is the mean time of images `10 + 2k` and `11 + 2k`, with both names. -/
theorem C51_pair (infos : List (Str × ℚ)) (k : ℕ) (a b : Str × ℚ) (ha : infos[10 + 2 * k]? = some a)
    (hb : infos[10 + 2 * k + 1]? = some b) : (avgInfos infos)[10 + k]? = some (a.1 ++ '/' :: b.1, (a.2 + b.2) / 2) := by
  obtain ⟨hb', hb2⟩ := List.getElem?_eq_some_iff.1 hb
  obtain ⟨ha', ha2⟩ := List.getElem?_eq_some_iff.1 ha
  unfold avgInfos
  rw [List.getElem?_append_right (by simp)]
  have e : 10 + k - (List.take 10 infos).length = k := by simp; omega
  rw [e, List.getElem?_map, chunk2_get _ k (by simp; omega), List.drop_drop]
  have e2 : (infos.drop (10 + 2 * k)).take 2 = [a, b] := by
    rw [List.drop_eq_getElem_cons ha', List.drop_eq_getElem_cons hb', ha2, hb2]; rfl
  rw [e2]
  simp [joinChar]

/-- The first ten images stay as they are. -/
theorem C51_head (infos : List (Str × ℚ)) (k : ℕ) (hk : k < 10) (h : k < infos.length) :
    (avgInfos infos)[k]? = infos[k]? := by
  unfold avgInfos
  rw [List.getElem?_append_left (by simp; omega), List.getElem?_take_of_lt hk]

/-- What an averaged run does: it succeeds iff the binary table already exists and there are at most eleven images;
otherwise the times and the coefficients differ in number. -/
theorem C51_false {β : Type} (infos : List (Str × ℚ)) (coeffs : ℕ → β) :
    ((∃ t, averagedRun infos true coeffs = .ok t) ↔ infos.length ≤ 11) ∧
    (12 ≤ infos.length → averagedRun infos true coeffs = .error .valueError) ∧
    averagedRun infos false coeffs = .error .attributeError := by
  have hr := C51_rows infos
  refine ⟨⟨?_, ?_⟩, ?_, rfl⟩
  · rintro ⟨t, h⟩
    by_contra hc
    simp only [averagedRun, readHdfAvg, if_true, columnStack, List.length_map, List.length_range, hr] at h
    rw [if_neg (by split <;> omega)] at h
    cases h
  · intro h
    simp only [averagedRun, readHdfAvg, if_true, columnStack, List.length_map, List.length_range, hr]
    rw [if_pos (by split <;> omega)]
    exact ⟨_, rfl⟩
  · intro h
    simp only [averagedRun, readHdfAvg, if_true, columnStack, List.length_map, List.length_range, hr]
    rw [if_neg (by split <;> omega)]

/-- The part that holds: up to eleven images every image gets its own time. -/
theorem C51_short_partial {β : Type} (infos : List (Str × ℚ)) (h : infos.length ≤ 11) (coeffs : ℕ → β) :
    averagedRun infos true coeffs = .ok ((infos.map (·.2)).zip ((List.range infos.length).map coeffs)) := by
  have hr := C51_rows infos
  have e : (avgInfos infos).map (·.2) = infos.map (·.2) := by
    apply List.ext_getElem?
    intro k
    simp only [List.getElem?_map]
    rcases Nat.lt_or_ge k 10 with hk | hk
    · rcases Nat.lt_or_ge k infos.length with h2 | h2
      · rw [C51_head infos k hk h2]
      · rw [List.getElem?_eq_none h2, List.getElem?_eq_none (by rw [hr]; split <;> omega)]
    · rcases Nat.lt_or_ge k infos.length with h2 | h2
      · have hk10 : k = 10 := by omega
        subst hk10
        unfold avgInfos
        have hd : infos.drop 10 = [infos[10]] := by
          rw [List.drop_eq_getElem_cons h2, List.drop_eq_nil_of_le (by omega)]
        rw [List.getElem?_append_right (by simp), hd, List.getElem?_eq_getElem h2]
        have : 10 - (infos.take 10).length = 0 := by simp; omega
        rw [this]
        simp [chunk2]
      · rw [List.getElem?_eq_none h2, List.getElem?_eq_none (by rw [hr]; split <;> omega)]
  simp only [averagedRun, readHdfAvg, if_true, e, columnStack, List.length_map, List.length_range]

example : averagedRun ((List.range 12).map fun k => (natStr k, (k : ℚ))) true (fun k => k) = .error .valueError := by
  decide +kernel

example : (avgInfos ((List.range 13).map fun k => (natStr k, (k : ℚ)))).drop 9 =
    [("9".toList, 9), ("10/11".toList, 21 / 2), ("12".toList, 12)] := by
  decide +kernel

/-! ### C52 -/

/-- The file looked for is never the file of any calculation, from whatever directory it was saved. -/
theorem checkedPath_ne_savedPath (cwd cwd' : Path) (name solver name' : Str) :
    checkedPath cwd name ≠ savedPath cwd' solver name' := by
  intro h
  have h1 := congrArg (fun p : Path => p.reverse[2]?) h
  simp only [checkedPath, savedPath, List.reverse_append] at h1
  simp at h1

/-- Refuted: whatever coefficient files exist from earlier calculations, in this or any other directory, every array and
channel is computed again. -/
theorem C52_false (cwd : Path) (solver property : Str) (pairs : List (ℕ × ℕ)) (files : List Path)
    (hfiles : ∀ f ∈ files, ∃ cwd' solver' name, f = savedPath cwd' solver' name) :
    (analysisRun cwd solver property pairs files).2 = pairs := by
  induction pairs generalizing files with
  | nil => rfl
  | cons p rest ih =>
    obtain ⟨a, c⟩ := p
    rw [analysisRun, if_neg]
    · simp only
      rw [ih]
      intro f hf
      rcases List.mem_cons.1 hf with rfl | hf
      · exact ⟨_, _, _, rfl⟩
      · exact hfiles f hf
    · intro hf
      obtain ⟨d, s, n, h⟩ := hfiles _ hf
      exact checkedPath_ne_savedPath _ _ _ _ _ h

/-- The part that holds: a pair is skipped exactly if its file lies in the parent's `analysis/extinction_coefficients`, and
then no other file is written for it. Missing for the claim: the files that are written lie elsewhere (`C52_false`). -/
theorem C52_looked_up_partial (cwd : Path) (solver property : Str) (pairs : List (ℕ × ℕ)) (files : List Path) :
    ∀ a c, (a, c) ∈ (analysisRun cwd solver property pairs files).2 ↔
      (a, c) ∈ pairs ∧ checkedPath cwd (coeffName solver property c a) ∉ files := by
  induction pairs generalizing files with
  | nil => intro a c; simp [analysisRun]
  | cons p rest ih =>
    obtain ⟨a', c'⟩ := p
    intro a c
    rw [analysisRun]
    split
    · rename_i h
      rw [ih]
      constructor
      · rintro ⟨h1, h2⟩; exact ⟨by simp [h1], h2⟩
      · rintro ⟨h1, h2⟩
        rcases List.mem_cons.1 h1 with e | h1
        · cases e; exact absurd h h2
        · exact ⟨h1, h2⟩
    · rename_i h
      simp only [List.mem_cons, ih]
      have : ∀ x : Path, checkedPath cwd (coeffName solver property c a) ∉
          (savedPath cwd solver (coeffName solver property c' a') :: files) ↔
          checkedPath cwd (coeffName solver property c a) ∉ files := by
        intro _
        rw [List.mem_cons, not_or]
        exact ⟨fun h => h.2, fun h => ⟨checkedPath_ne_savedPath _ _ _ _ _, h⟩⟩
      rw [not_or]
      constructor
      · rintro (e | ⟨h1, h2⟩)
        · cases e; exact ⟨.inl rfl, h⟩
        · exact ⟨.inr h1, h2.2⟩
      · rintro ⟨e | h1, h2⟩
        · exact .inl e
        · exact .inr ⟨h1, checkedPath_ne_savedPath _ _ _ _ _, h2⟩

/-- Cutting at the first character outside `p` is unique. -/
theorem prefix_cut {p : Char → Bool} {a b x y : Str} {c d : Char} (ha : ∀ k ∈ a, p k = true) (hb : ∀ k ∈ b, p k = true)
    (hc : p c = false) (hd : p d = false) (h : a ++ c :: x = b ++ d :: y) : a = b ∧ c :: x = d :: y := by
  induction a generalizing b with
  | nil =>
    cases b with
    | nil => exact ⟨rfl, h⟩
    | cons k b =>
      simp only [List.nil_append, List.cons_append, List.cons.injEq] at h
      have := hb k (by simp); rw [← h.1, hc] at this; cases this
  | cons k a ih =>
    cases b with
    | nil =>
      simp only [List.nil_append, List.cons_append, List.cons.injEq] at h
      have := ha k (by simp); rw [h.1, hd] at this; cases this
    | cons k' b =>
      simp only [List.cons_append, List.cons.injEq] at h
      obtain ⟨rfl, h2⟩ := ih (fun k hk => ha k (by simp [hk])) (fun k hk => hb k (by simp [hk])) h.2
      exact ⟨by rw [h.1], h2⟩

theorem natStr_inj {a b : ℕ} (h : natStr a = natStr b) : a = b := by
  have := parseNat_natStr a
  rw [h, parseNat_natStr] at this
  exact (Option.some.inj this).symm

/-- Different channels, arrays or properties never share a file. -/
theorem C52_distinct_files (solver p p' : Str) (c c' a a' : ℕ) (h : coeffName solver p c a = coeffName solver p' c' a') :
    c = c' ∧ p = p' ∧ a = a' := by
  unfold coeffName at h
  simp only [List.append_assoc, List.cons_append, List.append_cancel_left_eq] at h
  obtain ⟨h1, h2⟩ := prefix_cut (p := isDigit) (natStr_isDigit c) (natStr_isDigit c') (by decide) (by decide) h
  have h2 := (List.cons.inj h2).2
  have h3 := congrArg List.reverse h2
  simp only [List.reverse_append, List.append_assoc, List.append_cancel_left_eq] at h3
  have e : "_led_array_".toList.reverse = '_' :: "yarra_del_".toList := by decide
  rw [e, List.cons_append, List.cons_append] at h3
  obtain ⟨h4, h5⟩ := prefix_cut (p := isDigit) (fun k hk => natStr_isDigit a k (List.mem_reverse.1 hk))
    (fun k hk => natStr_isDigit a' k (List.mem_reverse.1 hk)) (by decide) (by decide) h3
  refine ⟨natStr_inj h1, ?_, natStr_inj (List.reverse_injective h4)⟩
  have h5 := (List.cons.inj h5).2
  rw [List.append_cancel_left_eq] at h5
  exact List.reverse_injective h5

/-- A second run in the same directory computes everything again. -/
example : let cwd := ["home".toList, "exp".toList]
    let r := analysisRun cwd "linear".toList "sum_col_val".toList [(0, 0), (0, 1)] []
    analysisRun cwd "linear".toList "sum_col_val".toList [(0, 0), (0, 1)] r.1 =
      (r.1 ++ r.1, [(0, 0), (0, 1)]) := by decide +kernel

/-! ### C53 -/

/-- Refuted, with the exact condition: the chosen solver gets its parameters iff the name is exactly `linear` or
`nonlinear`. -/
theorem C53_iff (s : Str) : loadedParams s = some (chosenSolver s) ↔ s = "linear".toList ∨ s = "nonlinear".toList := by
  constructor
  · unfold loadedParams
    split
    · intro _; right; assumption
    · split
      · intro _; left; assumption
      · intro h; cases h
  · rintro (rfl | rfl) <;> decide

/-- Parameters of the other solver are never taken. -/
theorem C53_never_wrong (s : Str) (k : SolverKind) (h : loadedParams s = some k) : chosenSolver s = k := by
  have h' : s = "linear".toList ∨ s = "nonlinear".toList := by
    unfold loadedParams at h
    split at h
    · right; assumption
    · split at h
      · left; assumption
      · cases h
  have := (C53_iff s).2 h'
  rw [this] at h; exact Option.some.inj h

/-- Names that are accepted, run a solver, and leave it without parameters. -/
theorem C53_false : chosenSolver "Linear".toList = .linear ∧ loadedParams "Linear".toList = none ∧
    chosenSolver "numeric".toList = .nonlinear ∧ loadedParams "numeric".toList = none ∧
    chosenSolver "lsq".toList = .linear ∧ loadedParams "lsq".toList = none := by decide

/-- The capitalisation does not change the solver. -/
theorem C53_any_case (s t : Str) (h : lower s = lower t) : chosenSolver s = chosenSolver t := by
  unfold chosenSolver; rw [h]

example : chosenSolver "NonLinear".toList = chosenSolver "nonlinear".toList := C53_any_case _ _ (by decide)

/-! ### C54 -/

theorem lower_none_tokens (t : Str) (h : lower t = "none".toList) : splitWs t = [t] ∧ ∀ z, pyInt t ≠ .ok z := by
  have hw : ∀ c : Char, isWs c = true → c.toLower = c ∧ c ∉ "none".toList := by
    intro c hc
    simp only [isWs, Bool.or_eq_true, beq_iff_eq] at hc
    rcases hc with ((((rfl | rfl) | rfl) | rfl) | rfl) | rfl <;> decide
  have hnws : ∀ c ∈ t, isWs c = false := by
    intro c hc
    cases h2 : isWs c with
    | false => rfl
    | true =>
      have hm : c.toLower ∈ lower t := List.mem_map_of_mem hc
      rw [(hw c h2).1, h] at hm
      exact absurd hm (hw c h2).2
  obtain ⟨a, b, c, d, rfl⟩ : ∃ a b c d, t = [a, b, c, d] := by
    have hl := congrArg List.length h
    simp only [lower, List.length_map] at hl
    match t, hl with
    | [a, b, c, d], _ => exact ⟨a, b, c, d, rfl⟩
  refine ⟨?_, ?_⟩
  · have := splitWsAux_token [a, b, c, d] [] hnws []
    rw [List.append_nil] at this
    unfold splitWs
    rw [this]; simp [splitWsAux]
  · intro z hz
    have ha : a.toLower = 'n' := by
      have := congrArg List.head? h
      simpa [lower] using this
    have hdig : ∀ k : Char, isDigit k = true → k.toLower = k := by
      intro k hk
      simp only [isDigit, Bool.and_eq_true, decide_eq_true_eq] at hk
      unfold Char.toLower
      rw [dif_neg]
      intro hh
      have h65 : 65 ≤ k.val.toNat := by
        have := UInt32.le_iff_toNat_le.1 hh.1
        simpa using this
      have : k.toNat = k.val.toNat := rfl
      omega
    have hne : a ≠ '-' ∧ a ≠ '+' ∧ charDigit a = none := by
      refine ⟨?_, ?_, ?_⟩
      · rintro rfl; revert ha; decide
      · rintro rfl; revert ha; decide
      · unfold charDigit
        rw [if_neg]
        intro hk
        have h1 := hdig a (by simp [isDigit, hk.1, hk.2])
        rw [ha] at h1
        rw [← h1] at hk
        revert hk; decide
    unfold pyInt at hz
    rw [strip_eq_self hnws] at hz
    split at hz
    · rename_i h1; simp only [List.cons.injEq] at h1; exact hne.1 h1.1
    · rename_i h1; simp only [List.cons.injEq] at h1; exact hne.2.1 h1.1
    · simp [parseNat, digitsVal, hne.2.2] at hz

/-- A list of numbers is returned exactly, whatever white space separates and surrounds them. -/
theorem C54_list (raw lead : Str) (hl : ∀ c ∈ lead, isWs c = true) (l : List (ℤ × Str)) (hne : l ≠ [])
    (h : ∀ p ∈ l, p.2 ≠ [] ∧ ∀ c ∈ p.2, isWs c = true) (hraw : strip raw = strip (numberText lead l)) :
    listOption raw = some (l.map (·.1)) := by
  have hs := splitWs_numberText lead hl l h
  have hs' : (splitWs (strip raw)).mapM pyInt = .ok (l.map (·.1)) := by rw [hraw, splitWs_strip, hs]
  unfold listOption
  simp only
  rw [if_neg, hs']
  rintro (hn | hn)
  · obtain ⟨h1, h2⟩ := lower_none_tokens _ hn
    rw [h1] at hs'
    cases hp : pyInt (strip raw) with
    | ok z => exact h2 z hp
    | error e =>
      rw [List.mapM_cons, hp] at hs'
      cases hs'
  · rw [hn] at hs'
    have : l.map (·.1) = [] := (Except.ok.inj hs').symm
    exact hne (by simpa using this)

/-- `None` in any capitalisation, or nothing, means not set. -/
theorem C54_unset (raw : Str) (h : lower (strip raw) = "none".toList ∨ strip raw = []) : listOption raw = none := by
  unfold listOption; rw [if_pos h]

/-- Refuted: a value with any unreadable token is treated like an option that is not set. -/
theorem C54_false (raw : Str) (h : ∃ t ∈ splitWs raw, ∃ e, pyInt t = .error e) : listOption raw = none := by
  unfold listOption
  simp only
  split
  · rfl
  · rw [splitWs_strip]
    obtain ⟨e, he⟩ := mapM_error h
    rw [he]

/-- Exact condition: an option counts as not set iff it is empty, `None`, or contains something that is no number. -/
theorem C54_unset_iff (raw : Str) : listOption raw = none ↔
    strip raw = [] ∨ lower (strip raw) = "none".toList ∨ ∃ t ∈ splitWs raw, ∃ e, pyInt t = .error e := by
  constructor
  · intro h
    by_contra hc
    rw [not_or, not_or] at hc
    obtain ⟨h1, h2, h3⟩ := hc
    have : (splitWs (strip raw)).mapM pyInt = .ok ((splitWs (strip raw)).map
        fun s => match pyInt s with | .ok z => z | .error _ => 0) := by
      apply mapM_ok
      intro s hs
      cases hp : pyInt s with
      | ok z => rfl
      | error e => exact absurd ⟨s, by rwa [splitWs_strip] at hs, e, hp⟩ h3
    unfold listOption at h
    simp only [this] at h
    rw [if_neg (by rintro (h | h); exacts [h2 h, h1 h])] at h
    cases h
  · rintro (h | h | h)
    · exact C54_unset raw (.inr h)
    · exact C54_unset raw (.inl h)
    · exact C54_false raw h

example : listOption " 3  -4\t5 ".toList = some [3, -4, 5] := by decide
example : listOption "NONE".toList = none := by decide
example : listOption "1, 2".toList = none := by decide

/-! ### C79: lists handed to the constructor -/

/-- Refuted for every non-empty list: the constructor writes Python's notation of a list, with brackets and commas, which
reads back as an option that is not set. -/
theorem C79_false (l : List ℤ) (h : l ≠ []) : listOption (pyListStr l) = none := by
  apply C54_false
  have hno : ∀ s : Str, parseNat ('[' :: s) = none := by
    intro s
    have : charDigit '[' = none := by decide
    simp [parseNat, digitsVal, this]
  have hfirst : ∃ u v : Str, pyListStr l = ('[' :: u) ++ v ∧ (∀ c ∈ '[' :: u, isWs c = false) ∧
      (v = [] ∨ ∃ w, v = ' ' :: w) := by
    match l, h with
    | [x], _ =>
      refine ⟨intStr x ++ [']'], [], by simp [pyListStr, pyListStr.go], ?_, .inl rfl⟩
      intro c hc
      simp only [List.mem_cons, List.mem_append, List.not_mem_nil, or_false] at hc
      rcases hc with rfl | hc | rfl
      · decide
      · exact intStr_notWs x c hc
      · decide
    | x :: y :: t, _ =>
      refine ⟨intStr x ++ [','], ' ' :: (pyListStr.go (y :: t) ++ [']']), by simp [pyListStr, pyListStr.go], ?_,
        .inr ⟨_, rfl⟩⟩
      intro c hc
      simp only [List.mem_cons, List.mem_append, List.not_mem_nil, or_false] at hc
      rcases hc with rfl | hc | rfl
      · decide
      · exact intStr_notWs x c hc
      · decide
  obtain ⟨u, v, e, hu, hv⟩ := hfirst
  refine ⟨'[' :: u, ?_, .valueError, ?_⟩
  · rw [e]
    unfold splitWs
    rw [splitWsAux_token _ _ hu]
    rcases hv with rfl | ⟨w, rfl⟩
    · simp [splitWsAux]
    · rw [splitWsAux, if_pos (by decide), if_neg (by simp)]
      simp
  · unfold pyInt
    rw [strip_eq_self hu]
    split
    · rename_i h1; simp at h1
    · rename_i h1; simp at h1
    · rw [hno]

/-- A single number, as the default camera channel `0` is given, reads back as the list of that number. -/
theorem C79_single_partial (z : ℤ) : listOption (intStr z) = some [z] :=
  C54_list (intStr z) [] (by simp) [(z, [' '])] (by simp) (by simp; decide) (by
    have h1 := strip_eq_self (intStr_notWs z)
    have : numberText [] [(z, [' '])] = intStr z ++ [' '] := by simp [numberText, spaced]
    rw [this, h1]
    unfold strip
    have hd : ∀ s : Str, s ≠ [] → (∀ c ∈ s, isWs c = false) → ((s ++ [' ']).dropWhile isWs) = s ++ [' '] := by
      intro s hs hw
      cases s with
      | nil => exact absurd rfl hs
      | cons a s => rw [List.cons_append, List.dropWhile_cons_of_neg (by simp [hw a (by simp)])]
    rw [hd _ (intStr_ne_nil z) (intStr_notWs z), List.reverse_append]
    have h2 : ∀ s : Str, ([' '].reverse ++ s).dropWhile isWs = s.dropWhile isWs := by
      intro s
      show (' ' :: s).dropWhile isWs = _
      rw [List.dropWhile_cons_of_pos (by decide)]
    rw [h2]
    cases hr : (intStr z).reverse with
    | nil => exact absurd (List.reverse_eq_nil_iff.1 hr) (intStr_ne_nil z)
    | cons a s =>
      have ha : isWs a = false := intStr_notWs z a (List.mem_reverse.1 (by rw [hr]; simp))
      rw [List.dropWhile_cons_of_neg (by simp [ha]), ← hr, List.reverse_reverse])

example : pyListStr [1, 2] = "[1, 2]".toList ∧ listOption (pyListStr [1, 2]) = none := by decide

end Ledsa
