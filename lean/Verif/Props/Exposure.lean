import Verif.Props.Step1
/-
C149, C150: what step 1 finds depends on the order of the bright pixels only, not on the exposure, the black level or the tone curve of the
camera; and it moves with the photo.
-/
namespace Ledsa

variable {V W : Type} [LinearOrder V] [Zero V] [LinearOrder W] [Zero W]

/-! ### Specification -/

/-- A brightest pixel of a photo. -/
def Brightest {V : Type} [LinearOrder V] (img : Image V) (p : ℕ × ℕ) : Prop :=
  img.Inside p ∧ ∀ q, img.Inside q → img.px q.1 q.2 ≤ img.px p.1 p.2

/-- Row by row, from left to right. -/
def RowMajor (p q : ℕ × ℕ) : Prop := p.1 < q.1 ∨ p.1 = q.1 ∧ p.2 ≤ q.2

/-- `cv2.minMaxLoc` reports the first of the brightest pixels. -/
def IsFirstMaxLoc {V : Type} [LinearOrder V] (maxLoc : Image V → ℕ × ℕ) : Prop :=
  ∀ img : Image V, 0 < img.h → 0 < img.w → Brightest img (maxLoc img) ∧ ∀ p, Brightest img p → RowMajor (maxLoc img) p

/-- A pixel brighter than the threshold. -/
def LitAbove {V : Type} [LinearOrder V] (img : Image V) (thr : V) (p : ℕ × ℕ) : Prop := img.Inside p ∧ thr < img.px p.1 p.2

/-- The photo with another tone curve. -/
def Image.tone {V W : Type} (f : V → W) (img : Image V) : Image W := ⟨img.h, img.w, fun i j => f (img.px i j)⟩

/-- The photos show the same bright pixels, those of the second moved by `a` rows and `b` columns, in the same order of brightness. -/
structure SamePixels {V W : Type} [LinearOrder V] [LinearOrder W] (a b : ℕ) (img : Image V) (thr : V) (img' : Image W) (thr' : W) : Prop where
  there : ∀ p, LitAbove img thr p → LitAbove img' thr' (p.1 + a, p.2 + b)
  back : ∀ p', LitAbove img' thr' p' → ∃ p, LitAbove img thr p ∧ p' = (p.1 + a, p.2 + b)
  order : ∀ p q, LitAbove img thr p → LitAbove img thr q →
    (img.px p.1 p.2 ≤ img.px q.1 q.2 ↔ img'.px (p.1 + a) (p.2 + b) ≤ img'.px (q.1 + a) (q.2 + b))

/-! ### The contract can be met -/

theorem RowMajor.antisymm {p q : ℕ × ℕ} (h : RowMajor p q) (h' : RowMajor q p) : p = q := by
  unfold RowMajor at h h'
  exact Prod.ext (by omega) (by omega)

theorem IsFirstMaxLoc.isMaxLoc {maxLoc : Image V → ℕ × ℕ} (h : IsFirstMaxLoc maxLoc) : IsMaxLoc maxLoc := fun img h1 h2 =>
  ⟨(h img h1 h2).1.1, fun i j hi hj => (h img h1 h2).1.2 (i, j) ⟨hi, hj⟩⟩

omit [Zero V] in
theorem isFirstMaxLoc_firstMaxLoc : IsFirstMaxLoc (firstMaxLoc (V := V)) := by
  intro img h1 h2
  obtain ⟨m1, m2⟩ := isMaxLoc_firstMaxLoc img h1 h2
  refine ⟨⟨m1, fun q hq => m2 q.1 q.2 hq.1 hq.2⟩, ?_⟩
  have key : ∀ (l : List (ℕ × ℕ)) (b : ℕ × ℕ), l.Pairwise RowMajor → (∀ p ∈ l, RowMajor b p) →
      ∀ p, p = b ∨ p ∈ l →
        (∀ q ∈ b :: l, img.px q.1 q.2 ≤ img.px p.1 p.2) →
        RowMajor (l.foldl (fun best p => if img.px best.1 best.2 < img.px p.1 p.2 then p else best) b) p := by
    intro l
    induction l with
    | nil =>
      intro b _ _ p hp _
      rcases hp with rfl | hp
      · exact Or.inr ⟨rfl, le_refl _⟩
      · cases hp
    | cons x xs ih =>
      intro b hl hb p hp hq
      rw [List.pairwise_cons] at hl
      simp only [List.foldl_cons]
      have hbx := hq b List.mem_cons_self
      have hxp := hq x (List.mem_cons_of_mem _ List.mem_cons_self)
      by_cases hlt : img.px b.1 b.2 < img.px x.1 x.2
      · rw [if_pos hlt]
        refine ih x hl.2 hl.1 p ?_ (fun q h => hq q (List.mem_cons_of_mem _ h))
        rcases hp with rfl | hp
        · exact absurd hxp (not_le.2 hlt)
        · exact List.mem_cons.1 hp
      · rw [if_neg hlt]
        by_cases hpb : p = b
        · exact ih b hl.2 (fun q h => hb q (List.mem_cons_of_mem _ h)) p (Or.inl hpb) fun q h => hq q (by
            rcases List.mem_cons.1 h with rfl | h
            · exact List.mem_cons_self
            · exact List.mem_cons_of_mem _ (List.mem_cons_of_mem _ h))
        · rcases List.mem_cons.1 (hp.resolve_left hpb) with rfl | hp'
          · -- `b` is as bright as `p`, the first of the rest
            have e : img.px b.1 b.2 = img.px p.1 p.2 := le_antisymm hbx (not_lt.1 hlt)
            have := ih b hl.2 (fun q h => hb q (List.mem_cons_of_mem _ h)) b (Or.inl rfl) fun q h => by
              rw [e]
              refine hq q ?_
              rcases List.mem_cons.1 h with rfl | h
              · exact List.mem_cons_self
              · exact List.mem_cons_of_mem _ (List.mem_cons_of_mem _ h)
            have hbp := hb p List.mem_cons_self
            unfold RowMajor at this hbp ⊢
            omega
          · exact ih b hl.2 (fun q h => hb q (List.mem_cons_of_mem _ h)) p (Or.inr hp') fun q h => hq q (by
              rcases List.mem_cons.1 h with rfl | h
              · exact List.mem_cons_self
              · exact List.mem_cons_of_mem _ (List.mem_cons_of_mem _ h))
  have hmem : ∀ p, p ∈ ((List.range img.h).flatMap fun i => (List.range img.w).map fun j => (i, j)) ↔ img.Inside p := by
    intro p
    rw [List.mem_flatMap]
    constructor
    · rintro ⟨i, hi, hp⟩
      obtain ⟨j, hj, rfl⟩ := List.mem_map.1 hp
      exact ⟨List.mem_range.1 hi, List.mem_range.1 hj⟩
    · rintro ⟨hi, hj⟩
      exact ⟨p.1, List.mem_range.2 hi, List.mem_map.2 ⟨p.2, List.mem_range.2 hj, rfl⟩⟩
  intro p hp
  refine key _ (0, 0) ?_ ?_ p (Or.inr ((hmem p).2 hp.1)) ?_
  · rw [List.pairwise_flatMap]
    constructor
    · intro i _
      rw [List.pairwise_map]
      exact List.pairwise_lt_range.imp fun h => Or.inr ⟨rfl, h.le⟩
    · refine List.pairwise_lt_range.imp ?_
      intro i i' h x hx y hy
      obtain ⟨j, _, rfl⟩ := List.mem_map.1 hx
      obtain ⟨j', _, rfl⟩ := List.mem_map.1 hy
      exact Or.inl h
  · intro q _
    unfold RowMajor
    simp only
    omega
  · intro q hq
    rcases List.mem_cons.1 hq with rfl | hq
    · exact hp.2 _ ⟨h1, h2⟩
    · exact hp.2 q ((hmem q).1 hq)

/-! ### The search -/

omit [Zero V] in
/-- Whether the largest value is above the threshold. -/
theorem maxLoc_lit {maxLoc : Image V → ℕ × ℕ} (hm : IsFirstMaxLoc maxLoc) (img : Image V) (h1 : 0 < img.h) (h2 : 0 < img.w) (thr : V) :
    thr < img.px (maxLoc img).1 (maxLoc img).2 ↔ ∃ p, LitAbove img thr p := by
  obtain ⟨⟨m1, m2⟩, _⟩ := hm img h1 h2
  exact ⟨fun h => ⟨_, m1, h⟩, fun ⟨p, hp, h⟩ => lt_of_lt_of_le h (m2 p hp)⟩

omit [Zero V] [Zero W] in
/-- The first of the brightest pixels is the same. -/
theorem SamePixels.maxLoc {a b : ℕ} {img : Image V} {thr : V} {img' : Image W} {thr' : W} (h : SamePixels a b img thr img' thr')
    {maxLoc : Image V → ℕ × ℕ} (hm : IsFirstMaxLoc maxLoc) {maxLoc' : Image W → ℕ × ℕ} (hm' : IsFirstMaxLoc maxLoc')
    (h1 : 0 < img.h) (h2 : 0 < img.w) (h1' : 0 < img'.h) (h2' : 0 < img'.w) (hl : thr < img.px (maxLoc img).1 (maxLoc img).2) :
    maxLoc' img' = ((maxLoc img).1 + a, (maxLoc img).2 + b) := by
  obtain ⟨⟨m1, m2⟩, m3⟩ := hm img h1 h2
  obtain ⟨⟨n1, n2⟩, n3⟩ := hm' img' h1' h2'
  have hp : LitAbove img thr (maxLoc img) := ⟨m1, hl⟩
  have hp' := h.there _ hp
  have hq' : LitAbove img' thr' (maxLoc' img') := ⟨n1, lt_of_lt_of_le hp'.2 (n2 _ hp'.1)⟩
  obtain ⟨q, hq, hqe⟩ := h.back _ hq'
  -- the image of the brightest pixel is brightest
  have b1 : Brightest img' ((maxLoc img).1 + a, (maxLoc img).2 + b) := by
    refine ⟨hp'.1, fun r hr => (n2 r hr).trans ?_⟩
    rw [hqe]
    exact (h.order q _ hq hp).1 (m2 q hq.1)
  -- and the other way round
  have b2 : Brightest img q := by
    refine ⟨hq.1, fun r hr => (m2 r hr).trans ((h.order _ q hp hq).2 ?_)⟩
    have := n2 _ hp'.1
    rw [hqe] at this
    exact this
  have r1 := n3 _ b1
  have r2 := m3 _ b2
  rw [hqe] at r1 ⊢
  have : maxLoc img = q := by
    refine r2.antisymm ?_
    unfold RowMajor at r1 ⊢
    simp only at r1
    omega
  rw [this]

/-- Clearing an area keeps the bright pixels alike. -/
theorem SamePixels.clear {a b : ℕ} {img : Image V} {thr : V} {img' : Image W} {thr' : W} (h : SamePixels a b img thr img' thr')
    (h0 : 0 ≤ thr) (h0' : 0 ≤ thr') (R : ℕ) (c : ℕ × ℕ)
    (hs : ∀ p, LitAbove img thr p → (inSlice img.h img.w c.1 c.2 R p.1 p.2 = true ↔ inSlice img'.h img'.w (c.1 + a) (c.2 + b) R (p.1 + a) (p.2 + b) = true)) :
    SamePixels a b (img.clear R c) thr (img'.clear R (c.1 + a, c.2 + b)) thr' := by
  have hlit : ∀ p, LitAbove (img.clear R c) thr p ↔ LitAbove img thr p ∧ ¬ inSlice img.h img.w c.1 c.2 R p.1 p.2 = true := by
    intro p
    unfold LitAbove Image.Inside
    simp only [Image.clear]
    by_cases hi : inSlice img.h img.w c.1 c.2 R p.1 p.2 = true
    · rw [if_pos hi]
      exact ⟨fun x => absurd h0 (not_le.2 x.2), fun x => absurd hi x.2⟩
    · rw [if_neg hi]
      exact ⟨fun x => ⟨x, hi⟩, fun x => x.1⟩
  have hlit' : ∀ p, LitAbove (img'.clear R (c.1 + a, c.2 + b)) thr' p ↔
      LitAbove img' thr' p ∧ ¬ inSlice img'.h img'.w (c.1 + a) (c.2 + b) R p.1 p.2 = true := by
    intro p
    unfold LitAbove Image.Inside
    simp only [Image.clear]
    by_cases hi : inSlice img'.h img'.w (c.1 + a) (c.2 + b) R p.1 p.2 = true
    · rw [if_pos hi]
      exact ⟨fun x => absurd h0' (not_le.2 x.2), fun x => absurd hi x.2⟩
    · rw [if_neg hi]
      exact ⟨fun x => ⟨x, hi⟩, fun x => x.1⟩
  refine ⟨?_, ?_, ?_⟩
  · intro p hp
    obtain ⟨l1, l2⟩ := (hlit p).1 hp
    exact (hlit' _).2 ⟨h.there p l1, fun x => l2 ((hs p l1).2 x)⟩
  · intro p' hp'
    obtain ⟨l1, l2⟩ := (hlit' p').1 hp'
    obtain ⟨p, e1, rfl⟩ := h.back p' l1
    exact ⟨p, (hlit p).2 ⟨e1, fun x => l2 ((hs p e1).1 x)⟩, rfl⟩
  · intro p q hp hq
    obtain ⟨l1, l2⟩ := (hlit p).1 hp
    obtain ⟨k1, k2⟩ := (hlit q).1 hq
    simp only [Image.clear]
    rw [if_neg l2, if_neg k2, if_neg (fun x => l2 ((hs p l1).2 x)), if_neg (fun x => k2 ((hs q k1).2 x))]
    exact h.order p q l1 k1

theorem clear_lit (img : Image V) (thr : V) (h0 : 0 ≤ thr) (R : ℕ) (c p : ℕ × ℕ) (h : LitAbove (img.clear R c) thr p) : LitAbove img thr p := by
  refine ⟨h.1, ?_⟩
  have h2 := h.2
  simp only [Image.clear] at h2
  split at h2
  · exact absurd h0 (not_le.2 h2)
  · exact h2

/-- The loop finds the same LEDs. -/
theorem searchLoop_same {maxLoc : Image V → ℕ × ℕ} (hm : IsFirstMaxLoc maxLoc) {maxLoc' : Image W → ℕ × ℕ} (hm' : IsFirstMaxLoc maxLoc')
    {a b : ℕ} (thr : V) (h0 : 0 ≤ thr) (thr' : W) (h0' : 0 ≤ thr') (R : ℕ) :
    ∀ (n id : ℕ) (img : Image V) (img' : Image W) (mv : V) (mv' : W), SamePixels a b img thr img' thr' →
      0 < img.h → 0 < img.w → 0 < img'.h → 0 < img'.w →
      (∀ c p, LitAbove img thr c → LitAbove img thr p →
        (inSlice img.h img.w c.1 c.2 R p.1 p.2 = true ↔ inSlice img'.h img'.w (c.1 + a) (c.2 + b) R (p.1 + a) (p.2 + b) = true)) →
      (thr < mv ↔ thr' < mv') →
      searchLoop maxLoc' thr' R n id img' mv' = (searchLoop maxLoc thr R n id img mv).map fun l => (l.1, l.2.1 + a, l.2.2 + b) := by
  intro n
  induction n with
  | zero => intro id img img' mv mv' _ _ _ _ _ _ _; rfl
  | succ n ih =>
    intro id img img' mv mv' h h1 h2 h1' h2' hs hmv
    have hlit : thr < img.px (maxLoc img).1 (maxLoc img).2 ↔ thr' < img'.px (maxLoc' img').1 (maxLoc' img').2 := by
      rw [maxLoc_lit hm img h1 h2, maxLoc_lit hm' img' h1' h2']
      exact ⟨fun ⟨p, hp⟩ => ⟨_, h.there p hp⟩, fun ⟨p, hp⟩ => (h.back p hp).imp fun _ x => x.1⟩
    simp only [searchLoop]
    by_cases hv : thr < mv
    · rw [if_pos hv, if_pos (hmv.1 hv)]
      by_cases hl : thr < img.px (maxLoc img).1 (maxLoc img).2
      · rw [if_pos hl, if_pos (hlit.1 hl), List.map_cons]
        have e := h.maxLoc hm hm' h1 h2 h1' h2' hl
        have hc : LitAbove img thr (maxLoc img) := ⟨(hm img h1 h2).1.1, hl⟩
        rw [ih (id + 1) (img.clear R (maxLoc img)) (img'.clear R (maxLoc' img')) (img.px (maxLoc img).1 (maxLoc img).2)
          (img'.px (maxLoc' img').1 (maxLoc' img').2) ?_ h1 h2 h1' h2' ?_ hlit]
        · rw [e]
        · rw [e]
          exact h.clear h0 h0' R _ fun p hp => hs _ p hc hp
        · exact fun c p hc hp => hs c p (clear_lit _ _ h0 _ _ _ hc) (clear_lit _ _ h0 _ _ _ hp)
      · rw [if_neg hl, if_neg (fun x => hl (hlit.2 x))]
        rfl
    · rw [if_neg hv, if_neg (fun x => hv (hmv.2 x))]
      rfl

theorem findSearchAreas_same {maxLoc : Image V → ℕ × ℕ} (hm : IsFirstMaxLoc maxLoc) {maxLoc' : Image W → ℕ × ℕ} (hm' : IsFirstMaxLoc maxLoc')
    {a b : ℕ} (thr : V) (h0 : 0 ≤ thr) (thr' : W) (h0' : 0 ≤ thr') (R n : ℕ) (img : Image V) (img' : Image W) (h : SamePixels a b img thr img' thr')
    (h1 : 0 < img.h) (h2 : 0 < img.w) (h1' : 0 < img'.h) (h2' : 0 < img'.w)
    (hs : ∀ c p, LitAbove img thr c → LitAbove img thr p →
      (inSlice img.h img.w c.1 c.2 R p.1 p.2 = true ↔ inSlice img'.h img'.w (c.1 + a) (c.2 + b) R (p.1 + a) (p.2 + b) = true)) :
    findSearchAreas maxLoc' thr' R n img' = (findSearchAreas maxLoc thr R n img).map fun l => (l.1, l.2.1 + a, l.2.2 + b) := by
  refine searchLoop_same hm hm' thr h0 thr' h0' R n 0 img img' _ _ h h1 h2 h1' h2' hs ?_
  rw [maxLoc_lit hm img h1 h2, maxLoc_lit hm' img' h1' h2']
  exact ⟨fun ⟨p, hp⟩ => ⟨_, h.there p hp⟩, fun ⟨p, hp⟩ => (h.back p hp).imp fun _ x => x.1⟩

/-! ### C149: exposure, black level, tone curve -/

/-- **C149.** Step 1 uses the brightness of pixels only to compare them: if two photos of the same size have the same pixels above their
thresholds, in the same order of brightness, the same LEDs are found, with the same numbers. -/
theorem C149_order {maxLoc : Image V → ℕ × ℕ} (hm : IsFirstMaxLoc maxLoc) {maxLoc' : Image W → ℕ × ℕ} (hm' : IsFirstMaxLoc maxLoc')
    (thr : V) (h0 : 0 ≤ thr) (thr' : W) (h0' : 0 ≤ thr') (R n : ℕ) (img : Image V) (img' : Image W) (h1 : 0 < img.h) (h2 : 0 < img.w)
    (eh : img'.h = img.h) (ew : img'.w = img.w) (hlit : ∀ p, LitAbove img thr p ↔ LitAbove img' thr' p)
    (hord : ∀ p q, LitAbove img thr p → LitAbove img thr q → (img.px p.1 p.2 ≤ img.px q.1 q.2 ↔ img'.px p.1 p.2 ≤ img'.px q.1 q.2)) :
    findSearchAreas maxLoc' thr' R n img' = findSearchAreas maxLoc thr R n img := by
  have := findSearchAreas_same hm hm' (a := 0) (b := 0) thr h0 thr' h0' R n img img'
    ⟨fun p hp => (hlit p).1 hp, fun p hp => ⟨p, (hlit p).2 hp, rfl⟩, hord⟩ h1 h2 (eh ▸ h1) (ew ▸ h2)
    (by intro c p _ _; rw [eh, ew]; rfl)
  rw [this]
  simp

/-- The values of a photo with another tone curve. -/
theorem values_tone (f : ℚ → ℚ) (img : Image ℚ) : (img.tone f).values = img.values.map f := by
  unfold Image.values Image.tone
  rw [List.map_flatMap]
  simp [Function.comp_def]

theorem mem_values (img : Image ℚ) (v : ℚ) : v ∈ img.values ↔ ∃ p, img.Inside p ∧ v = img.px p.1 p.2 := by
  unfold Image.values
  rw [List.mem_flatMap]
  constructor
  · rintro ⟨i, hi, hv⟩
    obtain ⟨j, hj, rfl⟩ := List.mem_map.1 hv
    exact ⟨(i, j), ⟨List.mem_range.1 hi, List.mem_range.1 hj⟩, rfl⟩
  · rintro ⟨p, ⟨hi, hj⟩, rfl⟩
    exact ⟨p.1, List.mem_range.2 hi, List.mem_map.2 ⟨p.2, List.mem_range.2 hj, rfl⟩⟩

/-- The values sorted, with another tone curve. -/
theorem sort_map (f : ℚ → ℚ) (vals : List ℚ) (hf : ∀ u ∈ vals, ∀ v ∈ vals, u < v → f u < f v) :
    (vals.map f).insertionSort (· ≤ ·) = (vals.insertionSort (· ≤ ·)).map f := by
  refine List.Perm.eq_of_pairwise (le := (· ≤ ·)) (fun a b _ _ => le_antisymm) (by simpa using List.pairwise_insertionSort (· ≤ ·) (vals.map f)) ?_
    (((List.perm_insertionSort _ _)).trans ((List.perm_insertionSort _ _).symm.map f))
  rw [List.pairwise_map]
  have hp : (vals.insertionSort (· ≤ ·)).Pairwise (· ≤ ·) := by simpa using List.pairwise_insertionSort (· ≤ ·) vals
  refine hp.imp_of_mem ?_
  intro a b ha hb hab
  have ha' := (List.perm_insertionSort (· ≤ ·) vals).mem_iff.1 ha
  have hb' := (List.perm_insertionSort (· ≤ ·) vals).mem_iff.1 hb
  rcases hab.lt_or_eq with h | h
  · exact (hf a ha' b hb' h).le
  · rw [h]

/-- Which values are above the percentile: those above one of the sorted values, whatever the interpolation. -/
theorem percentile_above (vals : List ℚ) (q : ℚ) (hne : vals ≠ []) (h0 : 0 ≤ q) (h1 : q ≤ 100) :
    ∃ t, percentile vals q = some t ∧ ∃ x, (vals.insertionSort (· ≤ ·))[⌊q / 100 * ((vals.length : ℚ) - 1)⌋.toNat]? = some x ∧ x ≤ t ∧
      ∀ v ∈ vals, t < v ↔ x < v := by
  obtain ⟨t, i, frac, hi, ht, hpos, hf0, hf1, hcase⟩ := percentile_spec vals q hne h0 h1
  have hfl : ⌊q / 100 * ((vals.length : ℚ) - 1)⌋.toNat = i := by
    rw [← hpos]
    have : ⌊(i : ℚ) + frac⌋ = (i : ℤ) := by
      rw [Int.floor_eq_iff]
      constructor <;> push_cast <;> linarith
    rw [this]
    simp
  have hge := percentile_ge vals t frac i hi hf0 hcase
  refine ⟨t, ht, _, by rw [hfl]; exact List.getElem?_eq_getElem hi, hge, ?_⟩
  intro v hv
  refine ⟨fun h => lt_of_le_of_lt hge h, fun h => ?_⟩
  rcases hcase with ⟨hi', e⟩ | ⟨_, _, e⟩
  · -- `v` stands behind place `i`
    obtain ⟨k, hk, hkv⟩ := List.getElem_of_mem ((List.perm_insertionSort (· ≤ ·) vals).mem_iff.2 hv)
    have hik : i + 1 ≤ k := by
      by_contra hc
      have := sorted_get vals (show k ≤ i by omega) hi
      rw [hkv] at this
      exact absurd this (not_le.2 h)
    have hle := sorted_get vals hik hk
    rw [hkv] at hle
    rw [e]
    have hpos' : 0 < v - (vals.insertionSort (· ≤ ·))[i] := sub_pos.2 h
    have hmul : frac * ((vals.insertionSort (· ≤ ·))[i + 1] - (vals.insertionSort (· ≤ ·))[i]) ≤ frac * (v - (vals.insertionSort (· ≤ ·))[i]) :=
      mul_le_mul_of_nonneg_left (by linarith) hf0
    have : frac * (v - (vals.insertionSort (· ≤ ·))[i]) < 1 * (v - (vals.insertionSort (· ≤ ·))[i]) := mul_lt_mul_of_pos_right hf1 hpos'
    linarith
  · rw [e]; exact h

/-- The bright pixels are the same for every increasing tone curve. -/
theorem percentile_tone (f : ℚ → ℚ) (vals : List ℚ) (hf : ∀ u ∈ vals, ∀ v ∈ vals, u < v → f u < f v) (q : ℚ) (hne : vals ≠ []) (h0 : 0 ≤ q) (h1 : q ≤ 100) :
    ∃ t t', percentile vals q = some t ∧ percentile (vals.map f) q = some t' ∧ (∀ v ∈ vals, t < v ↔ t' < f v) ∧
      (∃ x ∈ vals, x ≤ t) ∧ ∃ x ∈ vals, f x ≤ t' := by
  obtain ⟨t, ht, x, hx, hxt, hv⟩ := percentile_above vals q hne h0 h1
  obtain ⟨t', ht', x', hx', hxt', hv'⟩ := percentile_above (vals.map f) q (by simpa using hne) h0 h1
  rw [sort_map f vals hf, List.length_map, List.getElem?_map, hx] at hx'
  simp only [Option.map_some, Option.some.injEq] at hx'
  have hmem : x ∈ vals := (List.perm_insertionSort (· ≤ ·) vals).mem_iff.1 (List.mem_of_getElem? hx)
  refine ⟨t, t', ht, ht', ?_, ⟨x, hmem, hxt⟩, ⟨x, hmem, by rw [hx']; exact hxt'⟩⟩
  intro v hvm
  rw [hv v hvm, hv' (f v) (List.mem_map_of_mem hvm), ← hx']
  constructor
  · exact hf x hmem v hvm
  · intro h
    by_contra hc
    rcases (not_lt.1 hc).lt_or_eq with h' | h'
    · exact absurd (hf v hvm x hmem h') (not_lt.2 h.le)
    · rw [h'] at h
      exact lt_irrefl _ h

/-- **C149**, with the threshold of the program: every tone curve that keeps different values different and in their order (longer exposure, a black
level, a gamma correction) leaves the LEDs found by step 1 and their numbers as they are. (The threshold itself is another one.) -/
theorem C149_tone {maxLoc : Image ℚ → ℕ × ℕ} (hm : IsFirstMaxLoc maxLoc) (q : ℚ) (hq0 : 0 ≤ q) (hq1 : q ≤ 100) (R n : ℕ) (img : Image ℚ)
    (h1 : 0 < img.h) (h2 : 0 < img.w) (f : ℚ → ℚ) (hf : ∀ u ∈ img.values, ∀ v ∈ img.values, u < v → f u < f v)
    (hpix : ∀ v ∈ img.values, 0 ≤ v) (hpix' : ∀ v ∈ img.values, 0 ≤ f v) :
    (detect maxLoc q R n (img.tone f)).map (·.1) = (detect maxLoc q R n img).map (·.1) ∧ (detect maxLoc q R n img).isSome := by
  have hne : img.values ≠ [] := List.ne_nil_of_mem ((mem_values img _).2 ⟨(0, 0), ⟨h1, h2⟩, rfl⟩)
  obtain ⟨t, t', ht, ht', hv, ⟨x, hx, hxt⟩, ⟨x', hx', hxt'⟩⟩ := percentile_tone f img.values hf q hne hq0 hq1
  unfold detect
  rw [values_tone, ht, ht']
  refine ⟨?_, rfl⟩
  simp only [Option.map_some, Option.some.injEq]
  refine C149_order hm hm t ((hpix x hx).trans hxt) t' ((hpix' x' hx').trans hxt') R n img (img.tone f) h1 h2 rfl rfl ?_ ?_
  · intro p
    constructor
    · rintro ⟨hi, hl⟩
      exact ⟨hi, (hv _ ((mem_values img _).2 ⟨p, hi, rfl⟩)).1 hl⟩
    · rintro ⟨hi, hl⟩
      exact ⟨hi, (hv _ ((mem_values img _).2 ⟨p, hi, rfl⟩)).2 hl⟩
  · intro p r hp hr
    have mp := (mem_values img _).2 ⟨p, hp.1, rfl⟩
    have mr := (mem_values img _).2 ⟨r, hr.1, rfl⟩
    show _ ↔ f (img.px p.1 p.2) ≤ f (img.px r.1 r.2)
    constructor
    · intro h
      rcases h.lt_or_eq with h | h
      · exact (hf _ mp _ mr h).le
      · rw [h]
    · intro h
      by_contra hc
      exact absurd (hf _ mr _ mp (not_le.1 hc)) (not_lt.2 h)

/-- **C149**, exposure and black level: pixel values multiplied by a positive number, plus a background that is not negative. -/
theorem C149_exposure {maxLoc : Image ℚ → ℕ × ℕ} (hm : IsFirstMaxLoc maxLoc) (q : ℚ) (hq0 : 0 ≤ q) (hq1 : q ≤ 100) (R n : ℕ) (img : Image ℚ)
    (h1 : 0 < img.h) (h2 : 0 < img.w) (hpix : ∀ v ∈ img.values, 0 ≤ v) (gain black : ℚ) (hg : 0 < gain) (hb : 0 ≤ black) :
    (detect maxLoc q R n (img.tone fun v => gain * v + black)).map (·.1) = (detect maxLoc q R n img).map (·.1) :=
  (C149_tone hm q hq0 hq1 R n img h1 h2 _ (fun u _ v _ h => by
    have := mul_lt_mul_of_pos_left h hg
    linarith) hpix (fun v hv => add_nonneg (mul_nonneg hg.le (hpix v hv)) hb)).1

/-- A photo of one LED whose brightest pixel is the right one. -/
def glowImage : Image ℚ := ⟨3, 4, fun i j => if i = 1 ∧ j = 1 then 6 else if i = 1 ∧ j = 2 then 9 else 1⟩

/-- A photo with more light: the LED is found at the same place. -/
example : (detect firstMaxLoc 50 1 5 (glowImage.tone fun v => 3 * v + 7)).map (·.1) = some [(0, 1, 2)] := by
  rw [C149_exposure isFirstMaxLoc_firstMaxLoc 50 (by norm_num) (by norm_num) 1 5 glowImage (by decide) (by decide) (by decide +kernel) 3 7
    (by norm_num) (by norm_num)]
  decide +kernel

/-- **C149**, overexposure: a sensor that cuts values off at a limit is not harmless, even if every pixel still is what it should be up to the limit: step 1
finds another place. -/
theorem C149_overexposed_false : ¬ ∀ (maxLoc : Image ℚ → ℕ × ℕ), IsFirstMaxLoc maxLoc → ∀ (q : ℚ), 0 ≤ q → q ≤ 100 → ∀ (R n : ℕ) (img : Image ℚ),
    0 < img.h → 0 < img.w → (∀ v ∈ img.values, 0 ≤ v) → ∀ limit : ℚ, 0 ≤ limit →
    (detect maxLoc q R n (img.tone fun v => min v limit)).map (·.1) = (detect maxLoc q R n img).map (·.1) := by
  intro h
  have := h firstMaxLoc isFirstMaxLoc_firstMaxLoc 50 (by norm_num) (by norm_num) 1 1 glowImage (by decide) (by decide) (by decide +kernel) 5 (by norm_num)
  revert this
  decide +kernel

/-! ### C150: the photo moved -/

/-- **C150.** A moved or cropped photo: if the bright pixels of the second photo are those of the first, moved by `a` rows and `b` columns, and none is
nearer to the upper or left border than the search radius, the same LEDs are found, with the same numbers, at the moved places. -/
theorem C150_moved {maxLoc : Image V → ℕ × ℕ} (hm : IsFirstMaxLoc maxLoc) {maxLoc' : Image W → ℕ × ℕ} (hm' : IsFirstMaxLoc maxLoc')
    {a b : ℕ} (thr : V) (h0 : 0 ≤ thr) (thr' : W) (h0' : 0 ≤ thr') (R n : ℕ) (img : Image V) (img' : Image W) (h1 : 0 < img.h) (h2 : 0 < img.w)
    (h1' : 0 < img'.h) (h2' : 0 < img'.w) (h : SamePixels a b img thr img' thr') (hR : ∀ p, LitAbove img thr p → R ≤ p.1 ∧ R ≤ p.2) :
    findSearchAreas maxLoc' thr' R n img' = (findSearchAreas maxLoc thr R n img).map fun l => (l.1, l.2.1 + a, l.2.2 + b) := by
  refine findSearchAreas_same hm hm' thr h0 thr' h0' R n img img' h h1 h2 h1' h2' ?_
  intro c p hc hp
  have hRc := hR c hc
  rw [inSlice_iff img.h img.w R c p hRc.1 hRc.2 hp.1.1 hp.1.2]
  have hp' := (h.there p hp).1
  have := inSlice_iff img'.h img'.w R (c.1 + a, c.2 + b) (p.1 + a, p.2 + b) (by simp only; omega) (by simp only; omega) hp'.1 hp'.2
  rw [this]
  unfold InArea
  simp only
  omega

/-- Pixel values that are a permutation of each other have the same threshold. -/
theorem percentile_perm {vals vals' : List ℚ} (h : vals.Perm vals') (q : ℚ) : percentile vals q = percentile vals' q := by
  have : vals.insertionSort (· ≤ ·) = vals'.insertionSort (· ≤ ·) :=
    List.Perm.eq_of_pairwise (le := (· ≤ ·)) (fun a b _ _ => le_antisymm) (by simpa using List.pairwise_insertionSort (· ≤ ·) vals)
      (by simpa using List.pairwise_insertionSort (· ≤ ·) vals') ((List.perm_insertionSort _ _).trans (h.trans (List.perm_insertionSort _ _).symm))
  unfold percentile
  rw [this]

/-- **C150**, with the threshold of the program: the second photo has the same pixel values, in other places, and those above the threshold moved as a
whole. -/
theorem C150_detect {maxLoc : Image ℚ → ℕ × ℕ} (hm : IsFirstMaxLoc maxLoc) {a b : ℕ} (q : ℚ) (hq0 : 0 ≤ q) (hq1 : q ≤ 100) (R n : ℕ) (img img' : Image ℚ)
    (h1 : 0 < img.h) (h2 : 0 < img.w) (hv : img.values.Perm img'.values) (hpix : ∀ v ∈ img.values, 0 ≤ v)
    (hmove : ∀ t, percentile img.values q = some t → ∀ p', LitAbove img' t p' → ∃ p, p' = (p.1 + a, p.2 + b) ∧ img.Inside p)
    (hsame : ∀ t, percentile img.values q = some t → ∀ p, LitAbove img t p →
      img'.Inside (p.1 + a, p.2 + b) ∧ R ≤ p.1 ∧ R ≤ p.2)
    (hpx : ∀ p, img.Inside p → img'.Inside (p.1 + a, p.2 + b) → img'.px (p.1 + a) (p.2 + b) = img.px p.1 p.2) :
    detect maxLoc q R n img' = (detect maxLoc q R n img).map fun d => (d.1.map fun l => (l.1, l.2.1 + a, l.2.2 + b), d.2) := by
  have hne : img.values ≠ [] := List.ne_nil_of_mem ((mem_values img _).2 ⟨(0, 0), ⟨h1, h2⟩, rfl⟩)
  obtain ⟨t, ht, x, hx, hxt, _⟩ := percentile_above img.values q hne hq0 hq1
  have hmem : x ∈ img.values := (List.perm_insertionSort (· ≤ ·) img.values).mem_iff.1 (List.mem_of_getElem? hx)
  have ht0 := (hpix x hmem).trans hxt
  have hne' : img'.values ≠ [] := fun e => hne (by rw [e] at hv; exact List.perm_nil.1 hv)
  obtain ⟨v', hv'⟩ := List.exists_mem_of_ne_nil _ hne'
  obtain ⟨p', hp', _⟩ := (mem_values img' v').1 hv'
  unfold detect
  rw [← percentile_perm hv, ht]
  simp only [Option.map_some, Option.some.injEq, Prod.mk.injEq, and_true]
  refine C150_moved hm hm t ht0 t ht0 R n img img' h1 h2 (Nat.zero_lt_of_lt hp'.1) (Nat.zero_lt_of_lt hp'.2) ⟨?_, ?_, ?_⟩ fun p hp => (hsame t ht p hp).2
  · intro p hp
    have hi := (hsame t ht p hp).1
    exact ⟨hi, by simp only; rw [hpx p hp.1 hi]; exact hp.2⟩
  · intro p hp
    obtain ⟨r, rfl, hr⟩ := hmove t ht p hp
    refine ⟨r, ⟨hr, ?_⟩, rfl⟩
    have := hp.2
    rw [hpx r hr hp.1] at this
    exact this
  · intro p r hp hr
    rw [hpx p hp.1 (hsame t ht p hp).1, hpx r hr.1 (hsame t ht r hr).1]

/-- The same LED in the upper left part of a photo, and moved by two rows and one column. -/
def cornerGlow : Image ℚ := ⟨6, 6, fun i j => if i = 2 ∧ j = 2 then 6 else if i = 2 ∧ j = 3 then 9 else 1⟩
def movedGlow : Image ℚ := ⟨6, 6, fun i j => if i = 4 ∧ j = 3 then 6 else if i = 4 ∧ j = 4 then 9 else 1⟩

example : detect firstMaxLoc 50 2 5 cornerGlow = some ([(0, 2, 3)], 1) ∧ detect firstMaxLoc 50 2 5 movedGlow = some ([(0, 4, 4)], 1) := by
  decide +kernel

/-- An LED next to the border, and the same in the inner part of the photo. -/
def borderGlow : Image ℤ := ⟨6, 6, fun i j => if i = 1 ∧ j = 3 then 9 else 0⟩
def innerGlow : Image ℤ := ⟨6, 6, fun i j => if i = 3 ∧ j = 3 then 9 else 0⟩

/-- **C150**, at the border: without the distance from the border more LEDs may be found, so a photo moved towards the border is another photo. -/
theorem C150_border_false : ¬ ∀ (maxLoc : Image ℤ → ℕ × ℕ), IsFirstMaxLoc maxLoc → ∀ (a b : ℕ) (thr : ℤ), 0 ≤ thr → ∀ (R n : ℕ) (img img' : Image ℤ),
    0 < img.h → 0 < img.w → 0 < img'.h → 0 < img'.w → SamePixels a b img thr img' thr →
    findSearchAreas maxLoc thr R n img' = (findSearchAreas maxLoc thr R n img).map fun l => (l.1, l.2.1 + a, l.2.2 + b) := by
  intro h
  have hs : SamePixels 2 0 borderGlow 1 innerGlow 1 := by
    have l1 : ∀ p, LitAbove borderGlow 1 p → p = (1, 3) := by
      rintro ⟨i, j⟩ ⟨_, hp⟩
      simp only [borderGlow] at hp
      split at hp
      · rename_i e; rw [e.1, e.2]
      · omega
    have l2 : ∀ p, LitAbove innerGlow 1 p → p = (3, 3) := by
      rintro ⟨i, j⟩ ⟨_, hp⟩
      simp only [innerGlow] at hp
      split at hp
      · rename_i e; rw [e.1, e.2]
      · omega
    refine ⟨?_, ?_, ?_⟩
    · intro p hp
      rw [l1 p hp]
      exact ⟨⟨by decide, by decide⟩, by decide⟩
    · intro p hp
      rw [l2 p hp]
      exact ⟨(1, 3), ⟨⟨by decide, by decide⟩, by decide⟩, rfl⟩
    · intro p q hp hq
      rw [l1 p hp, l1 q hq]
      simp
  have := h firstMaxLoc isFirstMaxLoc_firstMaxLoc 2 0 1 (by decide) 2 3 borderGlow innerGlow (by decide) (by decide) (by decide) (by decide) hs
  revert this
  decide +kernel

end Ledsa
