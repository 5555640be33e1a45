import Verif.Model.Positions
import Verif.Props.Session
import Verif.Props.Coordinates
/-
C126-C128: the command `--coordinates` as a whole.
-/
namespace Ledsa

/-! ### Reading pixels, writing coordinates -/

theorem pixelOf_row (t : LedTable) (hids : t.map (·.1) = List.range t.length) (x : ℕ) (p : ℤ × ℤ) (h : (t.map (·.2))[x]? = some p) :
    pixelOf t x = .ok ((p.1 : ℝ), (p.2 : ℝ)) := by
  have hx : t[x]? = some (x, p) := by
    rw [List.getElem?_map] at h
    cases e : t[x]? with
    | none => rw [e] at h; cases h
    | some r =>
      rw [e] at h
      simp only [Option.map_some, Option.some.injEq] at h
      have h1 := congrArg (fun l => l[x]?) hids
      simp only [List.getElem?_map, e, Option.map_some] at h1
      have hlt : x < t.length := by
        by_contra hc
        rw [List.getElem?_eq_none (by omega)] at e
        cases e
      rw [List.getElem?_range hlt] at h1
      simp only [Option.some.injEq] at h1
      rw [← h, ← h1]
  have hnd : (t.map (·.1)).Nodup := by rw [hids]; exact List.nodup_range
  have hf : t.filter (fun r => ((r.1 : ℕ) : ℤ) = (x : ℤ)) = [(x, p)] := by
    have key : ∀ l : LedTable, (l.map (·.1)).Nodup → (x, p) ∈ l → l.filter (fun r => ((r.1 : ℕ) : ℤ) = (x : ℤ)) = [(x, p)] := by
      intro l
      induction l with
      | nil => intro _ h; cases h
      | cons r l ih =>
        intro hn hm
        rw [List.map_cons, List.nodup_cons] at hn
        rcases List.mem_cons.1 hm with rfl | hm
        · rw [List.filter_cons, if_pos (by simp), List.filter_eq_nil_iff.2]
          intro q hq
          simp only [decide_eq_true_eq, Nat.cast_inj]
          intro hc
          exact hn.1 (List.mem_map.2 ⟨q, hq, hc⟩)
        · rw [List.filter_cons, if_neg, ih hn.2 hm]
          simp only [decide_eq_true_eq, Nat.cast_inj]
          intro hc
          exact hn.1 (List.mem_map.2 ⟨(x, p), hm, hc.symm⟩)
    exact key t hnd (List.mem_of_getElem? hx)
  unfold pixelOf
  rw [hf]

theorem place_get (σ : ℤ → P3) (L : List ℕ) (hn : L.Nodup) (ps : List P3) (hl : ps.length = L.length) (i x : ℕ) (h : L[i]? = some x) (p : P3)
    (hp : ps[i]? = some p) : place σ ((L.map (Nat.cast : ℕ → ℤ)).zip ps) x = p := by
  unfold place
  have : ((L.map (Nat.cast : ℕ → ℤ)).zip ps).find? (fun e => e.1 = (x : ℤ)) = some ((x : ℤ), p) := by
    induction L generalizing ps i with
    | nil => simp at h
    | cons y L ih =>
      match ps, hl with
      | q :: ps, hl =>
        rw [List.nodup_cons] at hn
        cases i with
        | zero =>
          simp only [List.getElem?_cons_zero, Option.some.injEq] at h hp
          rw [List.map_cons, List.zip_cons_cons, List.find?_cons_of_pos (by simp [h]), h, hp]
        | succ i =>
          rw [List.getElem?_cons_succ] at h hp
          have hne : y ≠ x := fun hc => hn.1 (hc ▸ List.mem_of_getElem? h)
          rw [List.map_cons, List.zip_cons_cons, List.find?_cons_of_neg (by simpa using hne)]
          exact ih hn.2 ps (by simpa using hl) i h hp
  rw [this]

theorem place_other (σ : ℤ → P3) (ids : List ℤ) (ps : List P3) (x : ℤ) (h : x ∉ ids) : place σ (ids.zip ps) x = σ x := by
  unfold place
  have : (ids.zip ps).find? (fun e => e.1 = x) = none := by
    rw [List.find?_eq_none]
    intro e he
    simp only [decide_eq_true_eq]
    intro hc
    exact h (hc ▸ (List.of_mem_zip he).1)
  rw [this]

/-- The pixel of a row as real numbers. -/
def realPix (p : ℤ × ℤ) : P2 := ((p.1 : ℝ), (p.2 : ℝ))

/-- One LED array: its LEDs get the points of the measured line, all others keep what they have. -/
theorem placeArray_line (t : LedTable) (hids : t.map (·.1) = List.range t.length) (index : ℕ → Except PyErr (List ℤ))
    (edges : List (P3 × P3)) (σ : ℤ → P3) (k : ℕ) (L : List ℕ) (hi : index k = .ok (L.reverse.map (Nat.cast : ℕ → ℤ))) (hn : L.Nodup)
    (T B : P3) (he : edges[k]? = some (T, B)) (f l : ℕ) (hf : L.head? = some f) (hl : L.getLast? = some l) (pix : ℕ → ℤ × ℤ)
    (hp : ∀ x ∈ L, (t.map (·.2))[x]? = some (pix x))
    (hd : (pix f).1 * (pix l).2 ≠ (pix f).2 * (pix l).1) :
    ∃ σ', placeArray t index edges σ k = .ok σ' ∧ (∀ x : ℤ, x ∉ L.map (Nat.cast : ℕ → ℤ) → σ' x = σ x) ∧
      (∀ x ∈ L, ∃ s, IsFraction (realPix (pix f)) (realPix (pix l)) (realPix (pix x)) s ∧ σ' x = lerp3 T B s) ∧
      σ' f = T ∧ σ' l = B := by
  have hfm : f ∈ L := List.mem_of_head? hf
  have hlm : l ∈ L := List.mem_of_getLast? hl
  have hpx : ∀ x ∈ L, pixelOf t x = .ok (realPix (pix x)) := fun x hx => pixelOf_row t hids x (pix x) (hp x hx)
  have hd' : (realPix (pix f)).1 * (realPix (pix l)).2 ≠ (realPix (pix f)).2 * (realPix (pix l)).1 := by
    unfold realPix
    simp only
    exact_mod_cast hd
  have hpix : (L.reverse.map (Nat.cast : ℕ → ℤ)).mapM (pixelOf t) = .ok (L.reverse.map fun x => realPix (pix x)) := by
    have key : ∀ M : List ℕ, (∀ x ∈ M, x ∈ L) → (M.map (Nat.cast : ℕ → ℤ)).mapM (pixelOf t) = .ok (M.map fun x => realPix (pix x)) := by
      intro M
      induction M with
      | nil => intro _; rfl
      | cons x M ih =>
        intro h
        rw [List.map_cons, List.mapM_cons, hpx x (h x List.mem_cons_self), ih fun y hy => h y (List.mem_cons_of_mem _ hy)]
        rfl
    exact key _ fun x hx => List.mem_reverse.1 hx
  obtain ⟨res, r1, r2, r3, r4, r5⟩ := C33_on_line (L.reverse.map fun x => realPix (pix x)) T B (realPix (pix f)) (realPix (pix l))
    (by rw [List.getLast?_map, List.getLast?_reverse, hf]; rfl) (by rw [List.head?_map, List.head?_reverse, hl]; rfl) hd'
  have hconv : ∃ x, conversionMatrix (realPix (pix f)) (realPix (pix l)) T B = .ok x := by
    unfold conversionMatrix
    rw [if_neg (by unfold pixDet; exact sub_ne_zero.2 hd')]
    exact ⟨_, rfl⟩
  obtain ⟨cx, hcx⟩ := hconv
  have hrun : placeArray t index edges σ k = .ok (place σ ((L.reverse.map (Nat.cast : ℕ → ℤ)).zip res)) := by
    unfold placeArray
    rw [hi]
    simp only [bind, Except.bind, List.getLast?_map, List.head?_map, List.getLast?_reverse, List.head?_reverse, hf, hl, Option.map_some, he,
      hpx f hfm, hpx l hlm, hcx, hpix, r1]
  have hlen : res.length = L.reverse.length := by rw [r2]; simp
  have hnr : L.reverse.Nodup := List.nodup_reverse.2 hn
  refine ⟨_, hrun, ?_, ?_, ?_, ?_⟩
  · intro x hx
    apply place_other
    rw [List.map_reverse, List.mem_reverse]
    exact hx
  · intro x hx
    obtain ⟨i, hix⟩ := List.getElem?_of_mem (List.mem_reverse.2 hx)
    obtain ⟨s, s1, s2⟩ := r3 i (realPix (pix x)) (by rw [List.getElem?_map, hix]; rfl)
    exact ⟨s, s1, place_get σ L.reverse hnr res hlen i x hix _ s2⟩
  · have hL : L ≠ [] := by rintro rfl; cases hf
    apply place_get σ L.reverse hnr res hlen (L.length - 1) f
    · rw [show L.length - 1 = L.reverse.length - 1 by simp, ← List.getLast?_eq_getElem?, List.getLast?_reverse, hf]
    · rw [List.getLast?_eq_getElem?, r2] at r4
      simpa using r4
  · apply place_get σ L.reverse hnr res hlen 0 l
    · rw [← List.head?_eq_getElem?, List.head?_reverse, hl]
    · rw [← List.head?_eq_getElem?, r5]

/-! ### All arrays -/

theorem blockOf_nodup (arrays : List (List ℕ)) (k : ℕ) : (blockOf arrays k).Nodup := List.nodup_range'

theorem mem_blockOf_iff (arrays : List (List ℕ)) (k x : ℕ) :
    x ∈ blockOf arrays k ↔ (arrays.take k).flatten.length ≤ x ∧ x < (arrays.take (k + 1)).flatten.length := by
  unfold blockOf
  rw [List.mem_range'_1]
  have : (arrays.take (k + 1)).flatten.length = (arrays.take k).flatten.length + ((arrays[k]?).getD []).length := by
    rw [List.take_add_one, List.flatten_append, List.length_append]
    cases arrays[k]? <;> simp
  rw [this]

theorem take_flatten_mono (arrays : List (List ℕ)) (i j : ℕ) (h : i ≤ j) :
    (arrays.take i).flatten.length ≤ (arrays.take j).flatten.length := by
  obtain ⟨e, rfl⟩ := Nat.exists_eq_add_of_le h
  rw [List.take_add, List.flatten_append, List.length_append]
  omega

/-- The blocks of different arrays have no LED in common. -/
theorem blockOf_disjoint (arrays : List (List ℕ)) (j k x : ℕ) (hj : x ∈ blockOf arrays j) (hk : x ∈ blockOf arrays k) : j = k := by
  rw [mem_blockOf_iff] at hj hk
  rcases Nat.lt_trichotomy j k with h | h | h
  · have := take_flatten_mono arrays (j + 1) k h
    omega
  · exact h
  · have := take_flatten_mono arrays (k + 1) j h
    omega

theorem index_written (arrays : List (List ℕ)) (groups : Option (List (List ℤ))) (files : Str → Option Str) (k : ℕ) (hk : k < arrays.length) :
    loadIndexFile (step2Files arrays groups files (indexFileName k [])) = .ok ((blockOf arrays k).reverse.map (Nat.cast : ℕ → ℤ)) := by
  have h1 : writeIndexFiles [] (reorderIndices arrays) files (indexFileName k []) = some (indexFile (blockOf arrays k)) := by
    rw [writeIndexFiles_get, ← reorderIndices_get, List.getElem?_eq_getElem (by rw [reorderIndices_length]; exact hk)]
    rfl
  have h2 : step2Files arrays groups files (indexFileName k []) = some (indexFile (blockOf arrays k)) := by
    unfold step2Files
    cases groups with
    | none => exact h1
    | some g =>
      simp only
      rw [writeIndexFiles_other _ _ _ _ (fun i => (C20_file_names k i).2.symm), h1]
  rw [h2]
  exact C20_reversed _

/-- The measured ends of the arrays, and the pixels of their first and last LEDs, determine lines: the first and the last LED of each
array are not on one line with the corner of the image. -/
def ProperArrays (t' : LedTable) (arrays : List (List ℕ)) (n : ℕ) : Prop :=
  ∀ k, k < n → ∃ f l pf pl, (blockOf arrays k).head? = some f ∧ (blockOf arrays k).getLast? = some l ∧
    (t'.map (·.2))[f]? = some pf ∧ (t'.map (·.2))[l]? = some pl ∧ pf.1 * pl.2 ≠ pf.2 * pl.1

theorem foldlM_place (t' : LedTable) (hids : t'.map (·.1) = List.range t'.length) (arrays : List (List ℕ))
    (hlen : t'.length = arrays.flatten.length) (index : ℕ → Except PyErr (List ℤ)) (edges : List (P3 × P3)) (σ₀ : ℤ → P3) (n : ℕ)
    (hn : n ≤ arrays.length) (he : n ≤ edges.length)
    (hi : ∀ k, k < n → index k = .ok ((blockOf arrays k).reverse.map (Nat.cast : ℕ → ℤ))) (hp : ProperArrays t' arrays n) :
    ∃ σ, (List.range n).foldlM (placeArray t' index edges) σ₀ = .ok σ ∧
      (∀ x : ℤ, (∀ k, k < n → x ∉ (blockOf arrays k).map (Nat.cast : ℕ → ℤ)) → σ x = σ₀ x) ∧
      ∀ k, k < n → ∀ T B, edges[k]? = some (T, B) → ∀ f l pf pl, (blockOf arrays k).head? = some f →
        (blockOf arrays k).getLast? = some l → (t'.map (·.2))[f]? = some pf → (t'.map (·.2))[l]? = some pl →
        σ f = T ∧ σ l = B ∧ ∀ x ∈ blockOf arrays k, ∀ px, (t'.map (·.2))[x]? = some px →
          ∃ s, IsFraction (realPix pf) (realPix pl) (realPix px) s ∧ σ x = lerp3 T B s := by
  induction n with
  | zero =>
    refine ⟨σ₀, rfl, fun _ _ => rfl, ?_⟩
    intro k hk
    omega
  | succ n ih =>
    obtain ⟨σ, h1, h2, h3⟩ := ih (by omega) (by omega) (fun k hk => hi k (by omega)) (fun k hk => hp k (by omega))
    obtain ⟨f, l, pf, pl, g1, g2, g3, g4, g5⟩ := hp n (by omega)
    have hin : ∀ x ∈ blockOf arrays n, x < t'.length := by
      intro x hx
      have h := ((mem_blockOf_iff arrays n x).1 hx).2
      have h' := take_flatten_mono arrays (n + 1) arrays.length hn
      rw [List.take_length] at h'
      omega
    have hpix : ∀ x ∈ blockOf arrays n, (t'.map (·.2))[x]? = some (((t'.map (·.2))[x]?).getD (0, 0)) := by
      intro x hx
      rw [List.getElem?_eq_getElem (by simpa using hin x hx)]
      rfl
    obtain ⟨σ', k1, k2, k3, k4, k5⟩ := placeArray_line t' hids index edges σ n (blockOf arrays n) (hi n (by omega)) (blockOf_nodup _ _)
      edges[n].1 edges[n].2 (by rw [List.getElem?_eq_getElem (by omega)]) f l g1 g2 (fun x => ((t'.map (·.2))[x]?).getD (0, 0)) hpix
      (by simp only [g3, g4, Option.getD_some]; exact g5)
    refine ⟨σ', ?_, ?_, ?_⟩
    · rw [List.range_succ, List.foldlM_append, h1]
      simp only [bind, Except.bind, List.foldlM_cons, k1, List.foldlM_nil, pure, Except.pure]
    · intro x hx
      rw [k2 x (hx n (by omega)), h2 x fun k hk => hx k (by omega)]
    · intro k hk T B hTB f' l' pf' pl' e1 e2 e3 e4
      by_cases hkn : k = n
      · subst hkn
        rw [List.getElem?_eq_getElem (by omega), Option.some.injEq] at hTB
        rw [g1, Option.some.injEq] at e1
        rw [g2, Option.some.injEq] at e2
        subst e1 e2
        rw [hTB] at k3 k4 k5
        refine ⟨k4, k5, ?_⟩
        intro x hx px hpx
        obtain ⟨s, s1, s2⟩ := k3 x hx
        refine ⟨s, ?_, s2⟩
        simpa only [e3, e4, hpx, Option.getD_some] using s1
      · obtain ⟨m1, m2, m3⟩ := h3 k (by omega) T B hTB f' l' pf' pl' e1 e2 e3 e4
        have hkeep : ∀ x ∈ blockOf arrays k, σ' x = σ x := by
          intro x hx
          apply k2
          intro hc
          obtain ⟨y, hy, hxy⟩ := List.mem_map.1 hc
          rw [Nat.cast_inj.1 hxy] at hy
          exact hkn (blockOf_disjoint arrays k n x hx hy)
        refine ⟨?_, ?_, ?_⟩
        · rw [hkeep _ (List.mem_of_head? e1), m1]
        · rw [hkeep _ (List.mem_of_getLast? e2), m2]
        · intro x hx px hpx
          obtain ⟨s, s1, s2⟩ := m3 x hx px hpx
          exact ⟨s, s1, by rw [hkeep x hx, s2]⟩

/-! ### C126 -/

/-- Specification: equal up to half a micrometre in every coordinate. -/
def Near6 (p q : P3) : Prop := |p.1 - q.1| ≤ 1 / 2 / 10 ^ 6 ∧ |p.2.1 - q.2.1| ≤ 1 / 2 / 10 ^ 6 ∧ |p.2.2 - q.2.2| ≤ 1 / 2 / 10 ^ 6

theorem fixed6_near (x : ℝ) : |fixed6 x - x| ≤ 1 / 2 / 10 ^ 6 := by
  unfold fixed6
  have h := abs_sub_round (x * 10 ^ 6)
  have : (round (x * 10 ^ 6) : ℝ) / 10 ^ 6 - x = -(x * 10 ^ 6 - round (x * 10 ^ 6)) / 10 ^ 6 := by field_simp; ring
  rw [this, abs_div, abs_neg, abs_of_pos (show (0 : ℝ) < 10 ^ 6 by positivity)]
  gcongr

theorem fixed6P_near (p : P3) : Near6 (fixed6P p) p := ⟨fixed6_near _, fixed6_near _, fixed6_near _⟩

/-- Rows by LED id, in a table whose ids are the row numbers. -/
theorem row_unique (t : LedTable) (hids : t.map (·.1) = List.range t.length) (x : ℕ) (p q : ℤ × ℤ) (hp : (x, p) ∈ t) (hq : (x, q) ∈ t) :
    p = q := by
  have hnd : (t.map (·.1)).Nodup := by rw [hids]; exact List.nodup_range
  have := List.inj_on_of_nodup_map hnd hp hq rfl
  exact (Prod.mk.inj this).2

/-- Specification: the user has measured both ends of each of the first `n` arrays, and in the image no array points to the corner. -/
def EndsMeasured (t : LedTable) (arrays : List (List ℕ)) (n : ℕ) : Prop :=
  ∀ k, k < n → ∃ a f l pf pl, arrays[k]? = some a ∧ a.head? = some f ∧ a.getLast? = some l ∧ (f, pf) ∈ t ∧ (l, pl) ∈ t ∧
    pf.1 * pl.2 ≠ pf.2 * pl.1

theorem isMember_head (arrays : List (List ℕ)) (k : ℕ) (a : List ℕ) (ha : arrays[k]? = some a) (f : ℕ) (hf : a.head? = some f) :
    ∃ x, (blockOf arrays k).head? = some x ∧ IsMember arrays x k 0 f := by
  have hne : a ≠ [] := by rintro rfl; cases hf
  refine ⟨(arrays.take k).flatten.length, ?_, rfl, ?_⟩
  · unfold blockOf
    rw [ha]
    have := List.length_pos_iff.2 hne
    rw [Option.getD_some, List.head?_range', if_neg (by omega)]
  · unfold member
    rw [ha, Option.bind_some, ← List.head?_eq_getElem?, hf]

theorem isMember_last (arrays : List (List ℕ)) (k : ℕ) (a : List ℕ) (ha : arrays[k]? = some a) (l : ℕ) (hl : a.getLast? = some l) :
    ∃ x, (blockOf arrays k).getLast? = some x ∧ IsMember arrays x k (a.length - 1) l := by
  have hne : a ≠ [] := by rintro rfl; cases hl
  have hpos := List.length_pos_iff.2 hne
  refine ⟨(arrays.take k).flatten.length + (a.length - 1), ?_, rfl, ?_⟩
  · unfold blockOf
    rw [ha, Option.getD_some, List.getLast?_eq_getElem?, List.length_range', List.getElem?_range' (by omega), Nat.one_mul]
  · unfold member
    rw [ha, Option.bind_some, ← List.getLast?_eq_getElem?, hl]

theorem isMember_block (arrays : List (List ℕ)) (x k i old : ℕ) (h : IsMember arrays x k i old) : x ∈ blockOf arrays k := by
  obtain ⟨h1, h2⟩ := h
  unfold member at h2
  unfold blockOf
  rw [List.mem_range'_1]
  cases e : arrays[k]? with
  | none => rw [e] at h2; cases h2
  | some a =>
    rw [e, Option.bind_some] at h2
    have : i < a.length := by
      by_contra hc
      rw [List.getElem?_eq_none (by omega)] at h2
      cases h2
    rw [Option.getD_some]
    omega

/-- The rows of the file, before rounding. -/
theorem coordinates_rows (t : LedTable) (arrays : List (List ℕ)) (groups : Option (List (List ℤ))) (d : ExtDisk)
    (hd : Agrees d (.matched t arrays groups)) (fit : List P3 → Plane) (edges : List (P3 × P3)) (n : ℕ) (hn : n ≤ arrays.length)
    (he : n ≤ edges.length) (h4 : 4 ≤ arrays.flatten.length) (hp : EndsMeasured t arrays n) :
    ∃ rows, calculateCoordinates fit n edges d = .ok rows ∧ rows.length = arrays.flatten.length ∧
      (∀ x k i old, IsMember arrays x k i old → ∃ row, rows[x]? = some row ∧ row.id = x ∧ (old, row.pix) ∈ t ∧
        (n ≤ k → row.pos = fixed6P (-1, -1, -1) ∧ row.height = fixed6 (-1)) ∧
        (k < n → ∀ a T B f l pf pl, arrays[k]? = some a → edges[k]? = some (T, B) → a.head? = some f → a.getLast? = some l →
          (f, pf) ∈ t → (l, pl) ∈ t →
          ∃ s, IsFraction (realPix pf) (realPix pl) (realPix row.pix) s ∧ row.pos = fixed6P (lerp3 T B s) ∧
            row.height = fixed6 (lerp3 T B s).2.2)) := by
  obtain ⟨t', files, a1, a2, a3, a4, a5, a6, a7⟩ := hd
  obtain ⟨t'', r1, r2, r3, r4, _⟩ := C19_renumbering t a6 arrays a5
  have ht : t'' = t' := by rw [a3] at r1; injection r1 with r1; exact r1.symm
  subst ht
  -- the pixel of a member
  have hpos : ∀ x k i old p, IsMember arrays x k i old → (old, p) ∈ t → (t''.map (·.2))[x]? = some p := by
    intro x k i old p hm hp
    obtain ⟨q, q1, q2⟩ := renumbered_position t a6 arrays a5 t'' a3 x k i old hm
    rw [q2, row_unique t a6 old q p q1 hp]
  have hproper : ProperArrays t'' arrays n := by
    intro k hk
    obtain ⟨a, f, l, pf, pl, e1, e2, e3, e4, e5, e6⟩ := hp k hk
    obtain ⟨xf, f1, f2⟩ := isMember_head arrays k a e1 f e2
    obtain ⟨xl, l1, l2⟩ := isMember_last arrays k a e1 l e3
    exact ⟨xf, xl, pf, pl, f1, l1, hpos _ _ _ _ _ f2 e4, hpos _ _ _ _ _ l2 e5, e6⟩
  obtain ⟨σ, s1, s2, s3⟩ := foldlM_place t'' r2 arrays r3 (fun (k : ℕ) => loadIndexFile (d.index (indexFileName k []))) edges
    (fun _ => (-1, -1, -1)) n hn he (fun k hk => by rw [a7]; exact index_written arrays groups files k (by omega)) hproper
  obtain ⟨wh, w1, w2, m, w3⟩ := C37_own_coordinates_partial fit (t''.map fun r => σ r.1) (by rw [List.length_map, r3]; exact h4)
  rw [List.length_map] at w2
  refine ⟨(t''.zip wh).map fun x => ⟨x.1.1, x.1.2, fixed6P (σ x.1.1), fixed6 x.2.1, fixed6 x.2.2⟩, ?_, ?_, ?_⟩
  · unfold calculateCoordinates coordinates3d
    rw [a1]
    simp only [bind, Except.bind, loadTable_text, Int.toNat_natCast]
    rw [if_neg (by omega), s1]
    simp only [w1]
  · rw [List.length_map, List.length_zip, w2, r3, Nat.min_self]
  · intro x k i old hm
    obtain ⟨q, q1, q2⟩ := renumbered_position t a6 arrays a5 t'' a3 x k i old hm
    have hlt : x < t''.length := by
      by_contra hc
      rw [List.getElem?_eq_none (by simpa using hc)] at q2
      cases q2
    have hrow : t''[x]? = some (x, q) := by
      have q3 := q2
      rw [List.getElem?_map, List.getElem?_eq_getElem hlt, Option.map_some, Option.some.injEq] at q3
      have h1 := congrArg (fun l => l[x]?) r2
      simp only [List.getElem?_map, List.getElem?_eq_getElem hlt, Option.map_some, List.getElem?_range hlt, Option.some.injEq] at h1
      rw [List.getElem?_eq_getElem hlt]
      exact congrArg some (Prod.ext h1 q3)
    have hwh := w3 x (σ x) (by rw [List.getElem?_map, hrow]; rfl)
    refine ⟨⟨x, q, fixed6P (σ x), fixed6 (rawWidth (fit (t''.map fun r => σ r.1)) (projectToPlane (fit (t''.map fun r => σ r.1)) (σ x)) - m),
      fixed6 (σ x).2.2⟩, ?_, rfl, q1, ?_, ?_⟩
    · rw [List.getElem?_map, (List.getElem?_zip_eq_some (z := ((x, q), _)).2 ⟨hrow, hwh⟩)]
      rfl
    · intro hk
      have : σ x = (-1, -1, -1) := by
        apply s2
        intro j hj hc
        obtain ⟨y, hy, hxy⟩ := List.mem_map.1 hc
        rw [Nat.cast_inj.1 hxy] at hy
        have := blockOf_disjoint arrays j k x hy (isMember_block arrays x k i old hm)
        omega
      simp only [this, and_self]
    · intro hk a T B f l pf pl e1 e2 e3 e4 e5 e6
      obtain ⟨xf, f1, f2⟩ := isMember_head arrays k a e1 f e3
      obtain ⟨xl, l1, l2⟩ := isMember_last arrays k a e1 l e4
      obtain ⟨_, _, h3⟩ := s3 k hk T B e2 xf xl pf pl f1 l1 (hpos _ _ _ _ _ f2 e5) (hpos _ _ _ _ _ l2 e6)
      obtain ⟨s, h4, h5⟩ := h3 x (isMember_block arrays x k i old hm) q q2
      exact ⟨s, h4, by rw [h5], by rw [h5]⟩

variable {D : Type} [LinearOrder D] [Add D] [Mul D]

theorem frac_zero (p q : P2) : IsFraction p q p 0 := by unfold IsFraction lerp2; simp

theorem frac_one (p q : P2) : IsFraction p q q 1 := by unfold IsFraction lerp2; simp

/-- **C126.** Whatever was done before, if the LEDs were matched after the last detection and every array has its row of measured
coordinates, the file has one row for each LED of the arrays, in the order of their new numbers. The row of an LED has the pixel where
step 1 found it and, up to half a micrometre, the point of the measured line at the fraction given by its pixel; so the first and the
last LED of an array get the measured points. The height is its z coordinate. -/
theorem C126_positions_partial (maxLoc : Image ℚ → ℕ × ℕ) (m : Metric D) (h : List ExtCmd) (t : LedTable) (arrays : List (List ℕ))
    (groups : Option (List (List ℤ))) (hs : Stage.ofHistory maxLoc m h = .matched t arrays groups) (fit : List P3 → Plane)
    (edges : List (P3 × P3)) (he : arrays.length ≤ edges.length) (h4 : 4 ≤ arrays.flatten.length) (hp : EndsMeasured t arrays arrays.length) :
    ∃ rows, calculateCoordinates fit arrays.length edges (runHistory maxLoc m .empty h) = .ok rows ∧
      rows.length = arrays.flatten.length ∧
      ∀ x k i old, IsMember arrays x k i old → ∃ row, rows[x]? = some row ∧ row.id = x ∧ (old, row.pix) ∈ t ∧
        ∀ a T B f l pf pl, arrays[k]? = some a → edges[k]? = some (T, B) → a.head? = some f → a.getLast? = some l →
          (f, pf) ∈ t → (l, pl) ∈ t →
          ∃ s, IsFraction (realPix pf) (realPix pl) (realPix row.pix) s ∧ Near6 row.pos (lerp3 T B s) ∧
            |row.height - (lerp3 T B s).2.2| ≤ 1 / 2 / 10 ^ 6 ∧ (old = f → Near6 row.pos T) ∧ (old = l → Near6 row.pos B) := by
  have hd := history_agrees maxLoc m h
  rw [hs] at hd
  obtain ⟨rows, h1, h2, h3⟩ := coordinates_rows t arrays groups _ hd fit edges arrays.length le_rfl he h4 hp
  have hids : t.map (·.1) = List.range t.length := by
    obtain ⟨t', files, a1, a2, a3, a4, a5, a6, a7⟩ := hd
    exact a6
  refine ⟨rows, h1, h2, ?_⟩
  intro x k i old hm
  obtain ⟨row, r1, r2, r3, _, r4⟩ := h3 x k i old hm
  refine ⟨row, r1, r2, r3, ?_⟩
  intro a T B f l pf pl e1 e2 e3 e4 e5 e6
  have hk : k < arrays.length := by
    by_contra hc
    rw [List.getElem?_eq_none (by omega)] at e1
    cases e1
  obtain ⟨s, s1, s2, s3⟩ := r4 hk a T B f l pf pl e1 e2 e3 e4 e5 e6
  have hne : realPix pf ≠ realPix pl := by
    obtain ⟨a', f', l', pf', pl', g1, g2, g3, g4, g5, g6⟩ := hp k hk
    rw [e1, Option.some.injEq] at g1
    subst g1
    rw [e3, Option.some.injEq] at g2
    rw [e4, Option.some.injEq] at g3
    subst g2 g3
    rw [row_unique t hids f pf pf' e5 g4, row_unique t hids l pl pl' e6 g5]
    intro hc
    unfold realPix at hc
    simp only [Prod.mk.injEq, Int.cast_inj] at hc
    apply g6
    rw [hc.1, hc.2]
    ring
  refine ⟨s, s1, by rw [s2]; exact fixed6P_near _, by rw [s3]; exact fixed6_near _, ?_, ?_⟩
  · rintro rfl
    have hq := row_unique t hids old row.pix pf r3 e5
    rw [hq] at s1
    rw [s2, C33_fraction_unique _ _ _ hne s 0 s1 (frac_zero _ _)]
    have := fixed6P_near (lerp3 T B 0)
    simpa [lerp3] using this
  · rintro rfl
    have hq := row_unique t hids old row.pix pl r3 e6
    rw [hq] at s1
    rw [s2, C33_fraction_unique _ _ _ hne s 1 s1 (frac_one _ _)]
    have := fixed6P_near (lerp3 T B 1)
    simpa [lerp3] using this

/-- **C126, the edge LEDs**: the LED whose number the user gave as the first (second) of an array gets the first (second) triple of
coordinates given for the array, if no edge LED is ignored. -/
theorem C126_edges_partial (maxLoc : Image ℚ → ℕ × ℕ) (m : Metric D) (hm : 0 < m.neighbours) (h : List ExtCmd) (t : LedTable) (arrays : List (List ℕ))
    (groups : Option (List (List ℤ))) (hs : Stage.ofHistory maxLoc m h = .matched t arrays groups) (o : Step2Options)
    (ho : arraysOf m o t = .ok arrays) (fit : List P3 → Plane)
    (edges : List (P3 × P3)) (he : arrays.length ≤ edges.length) (h4 : 4 ≤ arrays.flatten.length) (hp : EndsMeasured t arrays arrays.length)
    (k : ℕ) (e : ℤ × ℤ) (hk : (edgeIndices o.edges)[k]? = some e) (hne : e.1 ≠ e.2) (h1 : e.1 ∉ ignoredLeds o.ignore)
    (h2 : e.2 ∉ ignoredLeds o.ignore) (T B : P3) (hTB : edges[k]? = some (T, B)) :
    ∃ rows, calculateCoordinates fit arrays.length edges (runHistory maxLoc m .empty h) = .ok rows ∧
      ∃ r ∈ rows, ∃ r' ∈ rows, (e.1.toNat, r.pix) ∈ t ∧ (e.2.toNat, r'.pix) ∈ t ∧ 0 ≤ e.1 ∧ 0 ≤ e.2 ∧ Near6 r.pos T ∧ Near6 r'.pos B := by
  obtain ⟨rows, g1, g2, g3⟩ := C126_positions_partial maxLoc m h t arrays groups hs fit edges he h4 hp
  have hids : t.map (·.1) = List.range t.length := by
    have hd := history_agrees maxLoc m h
    rw [hs] at hd
    obtain ⟨t', files, a1, a2, a3, a4, a5, a6, a7⟩ := hd
    exact a6
  obtain ⟨c1, c2, c3, c4⟩ := C108_arrays m hm o t (by rw [hids]; exact List.nodup_range) arrays ho
  obtain ⟨a, mid, ha, hmid⟩ := c4 k e hk hne h1 h2
  have hkl : k < arrays.length := by
    by_contra hc
    rw [List.getElem?_eq_none (by omega)] at ha
    cases ha
  obtain ⟨a', f, l, pf, pl, p1, p2, p3, p4, p5, p6⟩ := hp k hkl
  rw [ha, Option.some.injEq] at p1
  subst p1
  have hf : (f : ℤ) = e.1 := by
    have := congrArg List.head? hmid
    rw [List.head?_map, p2] at this
    simpa using this
  have hl : (l : ℤ) = e.2 := by
    have := congrArg List.getLast? hmid
    rw [List.getLast?_map, p3, List.getLast?_append] at this
    simpa using this
  obtain ⟨xf, _, f2⟩ := isMember_head arrays k a ha f p2
  obtain ⟨xl, _, l2⟩ := isMember_last arrays k a ha l p3
  obtain ⟨r, r1, _, r3, r4⟩ := g3 _ _ _ _ f2
  obtain ⟨r', r1', _, r3', r4'⟩ := g3 _ _ _ _ l2
  obtain ⟨_, _, _, _, n1, _⟩ := r4 a T B f l pf pl ha hTB p2 p3 p4 p5
  obtain ⟨_, _, _, _, _, n2⟩ := r4' a T B f l pf pl ha hTB p2 p3 p4 p5
  refine ⟨rows, g1, r, List.mem_of_getElem? r1, r', List.mem_of_getElem? r1', ?_, ?_, by omega, by omega, n1 rfl, n2 rfl⟩
  · rw [← hf, Int.toNat_natCast]; exact r3
  · rw [← hl, Int.toNat_natCast]; exact r3'

/-- **C126, the analysis** finds the position of an LED in the row of its number. -/
theorem C126_analysis (rows : List CoordRow) (ids : List ℕ) (h : ∀ x ∈ ids, x < rows.length) :
    ∃ ps, positionsFor rows ids = .ok ps ∧ ps.length = ids.length ∧
      ∀ (i x : ℕ) row, ids[i]? = some x → rows[x]? = some row → ps[i]? = some row.pos := by
  unfold positionsFor ledPositions
  obtain ⟨ps, h1, h2, h3⟩ := mapM_getElem (rows.map (·.pos)) ids (by simpa using h)
  rw [h1]
  refine ⟨ps, rfl, h2, ?_⟩
  intro i x row hi hx
  rw [h3 i x hi, List.getElem?_map, hx]
  rfl

/-- **C126 refuted**: if `num_arrays` is smaller than the number of arrays found, the command succeeds and every LED of the other arrays
is put at (-1, -1, -1). -/
theorem C126_left_out_false (maxLoc : Image ℚ → ℕ × ℕ) (m : Metric D) (h : List ExtCmd) (t : LedTable) (arrays : List (List ℕ))
    (groups : Option (List (List ℤ))) (hs : Stage.ofHistory maxLoc m h = .matched t arrays groups) (fit : List P3 → Plane)
    (edges : List (P3 × P3)) (n : ℕ) (hn : n < arrays.length) (he : n ≤ edges.length) (h4 : 4 ≤ arrays.flatten.length)
    (hp : EndsMeasured t arrays n) :
    ∃ rows, calculateCoordinates fit n edges (runHistory maxLoc m .empty h) = .ok rows ∧
      ∀ x k i old, IsMember arrays x k i old → n ≤ k → ∃ row, rows[x]? = some row ∧ row.pos = (-1, -1, -1) ∧ row.height = -1 := by
  have hd := history_agrees maxLoc m h
  rw [hs] at hd
  obtain ⟨rows, h1, h2, h3⟩ := coordinates_rows t arrays groups _ hd fit edges n hn.le he h4 hp
  refine ⟨rows, h1, ?_⟩
  intro x k i old hm hk
  obtain ⟨row, r1, r2, r3, r4, _⟩ := h3 x k i old hm
  have h6 : fixed6 (-1) = -1 := by
    unfold fixed6
    rw [show (-1 : ℝ) * 10 ^ 6 = ((-1000000 : ℤ) : ℝ) by norm_num, round_intCast]
    norm_num
  obtain ⟨r5, r6⟩ := r4 hk
  refine ⟨row, r1, ?_, by rw [r6, h6]⟩
  rw [r5]
  unfold fixed6P
  simp only [h6]

/-- **C126**: an array without a row of measured coordinates is an error. -/
theorem C126_missing_row (maxLoc : Image ℚ → ℕ × ℕ) (m : Metric D) (h : List ExtCmd) (t : LedTable) (arrays : List (List ℕ))
    (groups : Option (List (List ℤ))) (hs : Stage.ofHistory maxLoc m h = .matched t arrays groups) (fit : List P3 → Plane)
    (edges : List (P3 × P3)) (he : edges.length < arrays.length) (h4 : 2 ≤ arrays.flatten.length) (hp : EndsMeasured t arrays edges.length) :
    calculateCoordinates fit arrays.length edges (runHistory maxLoc m .empty h) = .error .indexError := by
  have hd := history_agrees maxLoc m h
  rw [hs] at hd
  obtain ⟨t', files, a1, a2, a3, a4, a5, a6, a7⟩ := hd
  obtain ⟨t'', r1, r2, r3, r4, _⟩ := C19_renumbering t a6 arrays a5
  have ht : t'' = t' := by rw [a3] at r1; injection r1 with r1; exact r1.symm
  subst ht
  have hpos : ∀ x k i old p, IsMember arrays x k i old → (old, p) ∈ t → (t''.map (·.2))[x]? = some p := by
    intro x k i old p hm hp
    obtain ⟨q, q1, q2⟩ := renumbered_position t a6 arrays a5 t'' a3 x k i old hm
    rw [q2, row_unique t a6 old q p q1 hp]
  have hproper : ProperArrays t'' arrays edges.length := by
    intro k hk
    obtain ⟨a, f, l, pf, pl, e1, e2, e3, e4, e5, e6⟩ := hp k hk
    obtain ⟨xf, f1, f2⟩ := isMember_head arrays k a e1 f e2
    obtain ⟨xl, l1, l2⟩ := isMember_last arrays k a e1 l e3
    exact ⟨xf, xl, pf, pl, f1, l1, hpos _ _ _ _ _ f2 e4, hpos _ _ _ _ _ l2 e5, e6⟩
  have hidx : ∀ k, k < arrays.length → loadIndexFile ((runHistory maxLoc m .empty h).index (indexFileName k [])) =
      .ok ((blockOf arrays k).reverse.map (Nat.cast : ℕ → ℤ)) := fun k hk => by rw [a7]; exact index_written arrays groups files k hk
  obtain ⟨σ, s1, _⟩ := foldlM_place t'' r2 arrays r3
    (fun (k : ℕ) => loadIndexFile ((runHistory maxLoc m .empty h).index (indexFileName k []))) edges
    (fun _ => (-1, -1, -1)) edges.length he.le le_rfl (fun k hk => hidx k (by omega)) hproper
  obtain ⟨c, hc⟩ : ∃ c, arrays.length = edges.length + (c + 1) := ⟨arrays.length - edges.length - 1, by omega⟩
  unfold calculateCoordinates coordinates3d
  rw [a1]
  simp only [bind, Except.bind, loadTable_text, Int.toNat_natCast]
  rw [if_neg (by omega), hc, List.range_add, List.foldlM_append, s1]
  simp only [bind, Except.bind]
  rw [List.range_succ_eq_map, List.map_cons, List.foldlM_cons]
  have : placeArray t'' (fun (k : ℕ) => loadIndexFile ((runHistory maxLoc m .empty h).index (indexFileName k []))) edges σ (edges.length + 0) =
      .error .indexError := by
    unfold placeArray
    simp only [Nat.add_zero, hidx edges.length he, bind, Except.bind, List.getElem?_eq_none (le_refl edges.length)]
    split <;> simp_all
  rw [this]
  rfl

/-! ### C127: ignoring LEDs -/

/-- Two matchings of the same table in which array `k` has the same first and the same last LED: an LED of the array in both has the same
coordinates. -/
theorem same_line (t : LedTable) (arrays arrays' : List (List ℕ)) (groups groups' : Option (List (List ℤ))) (d d' : ExtDisk)
    (hd : Agrees d (.matched t arrays groups)) (hd' : Agrees d' (.matched t arrays' groups')) (fit : List P3 → Plane) (edges : List (P3 × P3))
    (n : ℕ) (hn : n ≤ arrays.length) (hn' : n ≤ arrays'.length) (he : n ≤ edges.length) (h4 : 4 ≤ arrays.flatten.length)
    (h4' : 4 ≤ arrays'.flatten.length) (hp : EndsMeasured t arrays n) (hp' : EndsMeasured t arrays' n) :
    ∃ rows rows', calculateCoordinates fit n edges d = .ok rows ∧ calculateCoordinates fit n edges d' = .ok rows' ∧
      ∀ k a a', k < n → arrays[k]? = some a → arrays'[k]? = some a' → a.head? = a'.head? → a.getLast? = a'.getLast? →
        ∀ x i x' i' old, IsMember arrays x k i old → IsMember arrays' x' k i' old →
        ∃ row row', rows[x]? = some row ∧ rows'[x']? = some row' ∧ row.pix = row'.pix ∧ row.pos = row'.pos ∧ row.height = row'.height := by
  obtain ⟨rows, h1, _, h3⟩ := coordinates_rows t arrays groups d hd fit edges n hn he h4 hp
  obtain ⟨rows', h1', _, h3'⟩ := coordinates_rows t arrays' groups' d' hd' fit edges n hn' he h4' hp'
  have hids : t.map (·.1) = List.range t.length := by
    obtain ⟨t', files, a1, a2, a3, a4, a5, a6, a7⟩ := hd
    exact a6
  refine ⟨rows, rows', h1, h1', ?_⟩
  intro k a a' hk ha ha' hh hl x i x' i' old hm hm'
  obtain ⟨row, r1, r2, r3, _, r4⟩ := h3 x k i old hm
  obtain ⟨row', s1, s2, s3, _, s4⟩ := h3' x' k i' old hm'
  have hpix := row_unique t hids old _ _ r3 s3
  refine ⟨row, row', r1, s1, hpix, ?_⟩
  obtain ⟨b, f, l, pf, pl, e1, e2, e3, e4, e5, e6⟩ := hp k hk
  rw [ha, Option.some.injEq] at e1
  subst e1
  have hke : k < edges.length := by omega
  obtain ⟨u, u1, u2, u3⟩ := r4 hk a edges[k].1 edges[k].2 f l pf pl ha (List.getElem?_eq_getElem hke) e2 e3 e4 e5
  obtain ⟨v, v1, v2, v3⟩ := s4 hk a' edges[k].1 edges[k].2 f l pf pl ha' (List.getElem?_eq_getElem hke) (hh ▸ e2) (hl ▸ e3) e4 e5
  have hne : realPix pf ≠ realPix pl := by
    intro hc
    unfold realPix at hc
    simp only [Prod.mk.injEq, Int.cast_inj] at hc
    apply e6
    rw [hc.1, hc.2]
    ring
  rw [← hpix] at v1
  have huv := C33_fraction_unique _ _ _ hne u v u1 v1
  rw [u2, u3, v2, v3, huv]
  exact ⟨rfl, rfl⟩

/-- **C127, partial.** Two matchings of the same LEDs with the same edge LEDs and different ignored LEDs: in an array neither of whose edge
LEDs is ignored, every LED found in the array both times has the same pixel, position and height in both files of coordinates.
Missing (and false): arrays with an ignored edge LED. -/
theorem C127_others_partial (maxLoc : Image ℚ → ℕ × ℕ) (m : Metric D) (hm : 0 < m.neighbours) (h h' : List ExtCmd) (t : LedTable)
    (arrays arrays' : List (List ℕ)) (groups groups' : Option (List (List ℤ))) (hs : Stage.ofHistory maxLoc m h = .matched t arrays groups)
    (hs' : Stage.ofHistory maxLoc m h' = .matched t arrays' groups') (o o' : Step2Options) (ho : arraysOf m o t = .ok arrays)
    (ho' : arraysOf m o' t = .ok arrays') (hsame : o'.edges = o.edges) (fit : List P3 → Plane) (edges : List (P3 × P3))
    (he : arrays.length ≤ edges.length) (h4 : 4 ≤ arrays.flatten.length) (h4' : 4 ≤ arrays'.flatten.length)
    (hp : EndsMeasured t arrays arrays.length) (hp' : EndsMeasured t arrays' arrays'.length) :
    ∃ rows rows', calculateCoordinates fit arrays.length edges (runHistory maxLoc m .empty h) = .ok rows ∧
      calculateCoordinates fit arrays'.length edges (runHistory maxLoc m .empty h') = .ok rows' ∧
      ∀ (k : ℕ) (e : ℤ × ℤ), (edgeIndices o.edges)[k]? = some e → e.1 ≠ e.2 → e.1 ∉ ignoredLeds o.ignore → e.2 ∉ ignoredLeds o.ignore →
        e.1 ∉ ignoredLeds o'.ignore → e.2 ∉ ignoredLeds o'.ignore →
        ∀ x i x' i' old, IsMember arrays x k i old → IsMember arrays' x' k i' old →
        ∃ row row', rows[x]? = some row ∧ rows'[x']? = some row' ∧ row.pix = row'.pix ∧ row.pos = row'.pos ∧ row.height = row'.height := by
  have hd := history_agrees maxLoc m h
  rw [hs] at hd
  have hd' := history_agrees maxLoc m h'
  rw [hs'] at hd'
  have hids : t.map (·.1) = List.range t.length := by
    obtain ⟨t', files, a1, a2, a3, a4, a5, a6, a7⟩ := hd
    exact a6
  have hnd : (t.map (·.1)).Nodup := by rw [hids]; exact List.nodup_range
  obtain ⟨c1, c2, c3, c4⟩ := C108_arrays m hm o t hnd arrays ho
  obtain ⟨c1', c2', c3', c4'⟩ := C108_arrays m hm o' t hnd arrays' ho'
  have hlen : arrays'.length = arrays.length := by rw [c1, c1', hsame]
  rw [hlen] at hp' ⊢
  obtain ⟨rows, rows', h1, h1', h2⟩ := same_line t arrays arrays' groups groups' _ _ hd hd' fit edges arrays.length le_rfl hlen.ge he h4 h4' hp hp'
  refine ⟨rows, rows', h1, h1', ?_⟩
  intro k e hk hne i1 i2 i3 i4 x i x' i' old hx hx'
  obtain ⟨a, mid, ha, hmid⟩ := c4 k e hk hne i1 i2
  obtain ⟨a', mid', ha', hmid'⟩ := c4' k e (hsame ▸ hk) hne i3 i4
  have hkl : k < arrays.length := by
    by_contra hc
    rw [List.getElem?_eq_none (by omega)] at ha
    cases ha
  have inj : Function.Injective (Option.map (Nat.cast : ℕ → ℤ)) := Option.map_injective Nat.cast_injective
  have hh : a.head? = a'.head? := by
    apply inj
    rw [← List.head?_map, ← List.head?_map, hmid, hmid']
    rfl
  have hl : a.getLast? = a'.getLast? := by
    apply inj
    rw [← List.getLast?_map, ← List.getLast?_map, hmid, hmid', List.getLast?_append, List.getLast?_append]
    simp
  exact h2 k a a' hkl ha ha' hh hl x i x' i' old hx hx'

/-- **C127**: the first LED of an array after step 2 gets the first measured point, whichever LED it is; so if the first edge LED is
ignored, the point measured for it is given to another LED. -/
theorem C127_edge_false (maxLoc : Image ℚ → ℕ × ℕ) (m : Metric D) (hm : 0 < m.neighbours) (h : List ExtCmd) (t : LedTable) (arrays : List (List ℕ))
    (groups : Option (List (List ℤ))) (hs : Stage.ofHistory maxLoc m h = .matched t arrays groups) (o : Step2Options)
    (ho : arraysOf m o t = .ok arrays) (fit : List P3 → Plane)
    (edges : List (P3 × P3)) (he : arrays.length ≤ edges.length) (h4 : 4 ≤ arrays.flatten.length) (hp : EndsMeasured t arrays arrays.length)
    (k : ℕ) (e : ℤ × ℤ) (hk : (edgeIndices o.edges)[k]? = some e) (hi : e.1 ∈ ignoredLeds o.ignore) (T B : P3) (hTB : edges[k]? = some (T, B)) :
    ∃ rows, calculateCoordinates fit arrays.length edges (runHistory maxLoc m .empty h) = .ok rows ∧
      ∃ r ∈ rows, ∃ old : ℕ, (old : ℤ) ≠ e.1 ∧ (old, r.pix) ∈ t ∧ Near6 r.pos T := by
  obtain ⟨rows, g1, g2, g3⟩ := C126_positions_partial maxLoc m h t arrays groups hs fit edges he h4 hp
  have hids : t.map (·.1) = List.range t.length := by
    have hd := history_agrees maxLoc m h
    rw [hs] at hd
    obtain ⟨t', files, a1, a2, a3, a4, a5, a6, a7⟩ := hd
    exact a6
  obtain ⟨c1, c2, c3, c4⟩ := C108_arrays m hm o t (by rw [hids]; exact List.nodup_range) arrays ho
  have hkl : k < arrays.length := by
    rw [c1]
    exact (List.getElem?_eq_some_iff.1 hk).1
  obtain ⟨a, f, l, pf, pl, p1, p2, p3, p4, p5, p6⟩ := hp k hkl
  obtain ⟨xf, _, f2⟩ := isMember_head arrays k a p1 f p2
  obtain ⟨r, r1, _, r3, r4⟩ := g3 _ _ _ _ f2
  obtain ⟨_, _, _, _, n1, _⟩ := r4 a T B f l pf pl p1 hTB p2 p3 p4 p5
  refine ⟨rows, g1, r, List.mem_of_getElem? r1, f, ?_, r3, n1 rfl⟩
  intro hc
  apply c3 f
  · exact List.mem_flatten.2 ⟨a, List.mem_of_getElem? p1, List.mem_of_mem_head? p2⟩
  · rw [hc]; exact hi

/-! Five LEDs in a column. -/

/-- Five LEDs below each other, each darker than the one above. -/
def columnImage : Image ℚ :=
  ⟨17, 7, fun i j => if j = 3 then (if i = 2 then 9 else if i = 5 then 8 else if i = 8 then 7 else if i = 11 then 6 else if i = 14 then 5 else 0) else 0⟩

/-- Detection in this image. -/
def columnJob : Step1Job := ⟨columnImage, 1, 1, 10⟩

/-- From the first LED to the last one. -/
def columnOptions (ignore : String) : Step2Options := ⟨"0 4".toList, ignore.toList, none⟩

/-- The LEDs found. -/
def columnTable : LedTable := [(0, 2, 3), (1, 5, 3), (2, 8, 3), (3, 11, 3), (4, 14, 3)]

theorem column_table : columnJob.table firstMaxLoc = columnTable := by decide +kernel

theorem column_all : arraysOf pairMetric (columnOptions "None") columnTable = .ok [[0, 1, 2, 3, 4]] := by
  have h : (arraysOf pairMetric (columnOptions "None") columnTable).toOption = some [[0, 1, 2, 3, 4]] := by decide +kernel
  cases e : arraysOf pairMetric (columnOptions "None") columnTable with
  | error x => rw [e] at h; cases h
  | ok v => rw [e] at h; simp only [Except.toOption, Option.some.injEq] at h; rw [h]

theorem column_but_first : arraysOf pairMetric (columnOptions "0") columnTable = .ok [[1, 2, 3, 4]] := by
  have h : (arraysOf pairMetric (columnOptions "0") columnTable).toOption = some [[1, 2, 3, 4]] := by decide +kernel
  cases e : arraysOf pairMetric (columnOptions "0") columnTable with
  | error x => rw [e] at h; cases h
  | ok v => rw [e] at h; simp only [Except.toOption, Option.some.injEq] at h; rw [h]

theorem column_stage (ignore : String) (arrays : List (List ℕ)) (hne : arrays.flatten ≠ [])
    (h : arraysOf pairMetric (columnOptions ignore) columnTable = .ok arrays) :
    Stage.ofHistory firstMaxLoc pairMetric [.steps12 columnJob (columnOptions ignore)] = .matched columnTable arrays none := by
  unfold Stage.ofHistory
  simp only [List.foldl_cons, List.foldl_nil, Stage.after, column_table]
  unfold Stage.detect
  rw [if_neg (by unfold columnTable; simp)]
  unfold Stage.match
  simp only [h]
  rw [if_neg hne]
  rfl

-- the coordinates of the second LED: at a quarter of the way from (0, 0, 4) to (0, 0, 0)
theorem column_second : ∃ rows, calculateCoordinates (fun _ => ⟨0, 1, 0⟩) 1 [((0, 0, 4), (0, 0, 0))]
      (runHistory firstMaxLoc pairMetric .empty [.steps12 columnJob (columnOptions "None")]) = .ok rows ∧
    ∃ row, rows[1]? = some row ∧ Near6 row.pos (0, 0, 3) := by
  obtain ⟨rows, h1, h2, h3⟩ := C126_positions_partial firstMaxLoc pairMetric _ _ _ _ (column_stage "None" _ (by simp) column_all)
    (fun _ => ⟨0, 1, 0⟩) [((0, 0, 4), (0, 0, 0))] (by simp) (by simp) (by
      intro k hk
      have : k = 0 := by simpa using hk
      subst this
      exact ⟨[0, 1, 2, 3, 4], 0, 4, (2, 3), (14, 3), rfl, rfl, rfl, by decide, by decide, by decide⟩)
  refine ⟨rows, h1, ?_⟩
  obtain ⟨row, r1, r2, r3, r4⟩ := h3 1 0 1 1 ⟨rfl, rfl⟩
  refine ⟨row, r1, ?_⟩
  obtain ⟨s, s1, s2, _⟩ := r4 [0, 1, 2, 3, 4] (0, 0, 4) (0, 0, 0) 0 4 (2, 3) (14, 3) rfl rfl rfl rfl (by decide) (by decide)
  have hpix : row.pix = (5, 3) := by
    have : (1, row.pix) ∈ columnTable := r3
    unfold columnTable at this
    simpa using this
  have hs : s = 1 / 4 := by
    apply C33_fraction_unique (realPix (2, 3)) (realPix (14, 3)) (realPix row.pix) _ s (1 / 4) s1
    · rw [hpix]
      unfold IsFraction lerp2 realPix
      norm_num
    · unfold realPix
      norm_num
  rw [hs] at s2
  have : lerp3 ((0, 0, 4) : P3) (0, 0, 0) (1 / 4) = (0, 0, 3) := by
    unfold lerp3
    norm_num
  rwa [this] at s2

/-- **C127 refuted**: ignoring the first edge LED moves the second LED. -/
theorem C127_false : ¬ ∀ (j : Step1Job) (o o' : Step2Options) (arrays arrays' : List (List ℕ)) (fit : List P3 → Plane) (edges : List (P3 × P3))
    (rows rows' : List CoordRow), o'.edges = o.edges → o'.groups = o.groups →
    arraysOf pairMetric o (j.table firstMaxLoc) = .ok arrays → arraysOf pairMetric o' (j.table firstMaxLoc) = .ok arrays' →
    calculateCoordinates fit arrays.length edges (runHistory firstMaxLoc pairMetric .empty [.steps12 j o]) = .ok rows →
    calculateCoordinates fit arrays'.length edges (runHistory firstMaxLoc pairMetric .empty [.steps12 j o']) = .ok rows' →
    ∀ r ∈ rows, ∀ r' ∈ rows', r.pix = r'.pix → r.pos = r'.pos := by
  intro hall
  obtain ⟨rows', g1, g2, g3⟩ := C126_positions_partial firstMaxLoc pairMetric _ _ _ _ (column_stage "0" _ (by simp) column_but_first)
    (fun _ => ⟨0, 1, 0⟩) [((0, 0, 4), (0, 0, 0))] (by simp) (by simp) (by
      intro k hk
      have : k = 0 := by simpa using hk
      subst this
      exact ⟨[1, 2, 3, 4], 1, 4, (5, 3), (14, 3), rfl, rfl, rfl, by decide, by decide, by decide⟩)
  obtain ⟨row', r1, r2, r3, r4⟩ := g3 0 0 0 1 ⟨rfl, rfl⟩
  obtain ⟨s, s1, s2, _, s3, _⟩ := r4 [1, 2, 3, 4] (0, 0, 4) (0, 0, 0) 1 4 (5, 3) (14, 3) rfl rfl rfl rfl (by decide) (by decide)
  obtain ⟨rows, h1, h2, h3⟩ := C126_positions_partial firstMaxLoc pairMetric _ _ _ _ (column_stage "None" _ (by simp) column_all)
    (fun _ => ⟨0, 1, 0⟩) [((0, 0, 4), (0, 0, 0))] (by simp) (by simp) (by
      intro k hk
      have : k = 0 := by simpa using hk
      subst this
      exact ⟨[0, 1, 2, 3, 4], 0, 4, (2, 3), (14, 3), rfl, rfl, rfl, by decide, by decide, by decide⟩)
  obtain ⟨row, q1, q2, q3, _⟩ := h3 1 0 1 1 ⟨rfl, rfl⟩
  have hpix : row.pix = row'.pix := by
    have a : (1, row.pix) ∈ columnTable := q3
    have b : (1, row'.pix) ∈ columnTable := r3
    exact row_unique columnTable rfl 1 _ _ a b
  have heq := hall columnJob (columnOptions "None") (columnOptions "0") _ _ _ _ rows rows' rfl rfl
    (by rw [column_table]; exact column_all) (by rw [column_table]; exact column_but_first) h1 g1 row (List.mem_of_getElem? q1) row'
    (List.mem_of_getElem? r1) hpix
  obtain ⟨rows0, z1, row0, z2, z3⟩ := column_second
  have hr : rows0 = rows := by
    have : Except.ok rows0 = Except.ok rows := z1.symm.trans h1
    exact Except.ok.inj this
  rw [hr, q1, Option.some.injEq] at z2
  subst z2
  have n1 := z3.2.2
  have n2 := (s3 rfl).2.2
  rw [← heq] at n2
  simp only at n1 n2
  rw [abs_le] at n1 n2
  linarith [n1.1, n1.2, n2.1, n2.2]

end Ledsa
