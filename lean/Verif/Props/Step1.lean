import Verif.Model.Step1
import Mathlib.Tactic.Linarith
import Mathlib.Tactic.Ring
import Mathlib.Algebra.Order.Floor.Ring
/-
Properties C09 - C13: LED detection.
-/
namespace Ledsa

variable {V : Type} [LinearOrder V] [Zero V]

/-! ### Loop invariants -/

theorem searchLoop_length (maxLoc : Image V → Nat × Nat) (thr : V) (R : Nat) :
    ∀ n id img mv, (searchLoop maxLoc thr R n id img mv).length ≤ n := by
  intro n
  induction n with
  | zero => intro id img mv; simp [searchLoop]
  | succ n ih =>
    intro id img mv
    simp only [searchLoop]
    split
    · split
      · simpa using ih _ _ _
      · simp
    · simp

theorem searchLoop_ids (maxLoc : Image V → Nat × Nat) (thr : V) (R : Nat) :
    ∀ n id img mv, (searchLoop maxLoc thr R n id img mv).map (·.1) =
      List.range' id (searchLoop maxLoc thr R n id img mv).length := by
  intro n
  induction n with
  | zero => intro id img mv; simp [searchLoop]
  | succ n ih =>
    intro id img mv
    simp only [searchLoop]
    split
    · split
      · rw [List.map_cons, ih, List.length_cons, List.range'_succ]
      · simp
    · simp

theorem searchLoop_inside (maxLoc : Image V → Nat × Nat) (hmax : IsMaxLoc maxLoc) (thr : V) (R : Nat) :
    ∀ n id (img : Image V) mv, 0 < img.h → 0 < img.w →
      ∀ p ∈ searchLoop maxLoc thr R n id img mv, img.Inside p.2 := by
  intro n
  induction n with
  | zero => intro id img mv h1 h2 p hp; simp [searchLoop] at hp
  | succ n ih =>
    intro id img mv h1 h2 p hp
    simp only [searchLoop] at hp
    split at hp
    · split at hp
      · rw [List.mem_cons] at hp
        rcases hp with rfl | hp
        · exact (hmax img h1 h2).1
        · exact ih _ (img.clear R (maxLoc img)) _ h1 h2 p hp
      · simp at hp
    · simp at hp

omit [Zero V] in
/-- The contract of `minMaxLoc` can be met. -/
theorem isMaxLoc_firstMaxLoc : IsMaxLoc (firstMaxLoc (V := V)) := by
  intro img h1 h2
  have key : ∀ (l : List (Nat × Nat)) (b : Nat × Nat),
      let r := l.foldl (fun best p => if img.px best.1 best.2 < img.px p.1 p.2 then p else best) b
      (r = b ∨ r ∈ l) ∧ img.px b.1 b.2 ≤ img.px r.1 r.2 ∧ ∀ p ∈ l, img.px p.1 p.2 ≤ img.px r.1 r.2 := by
    intro l
    induction l with
    | nil => intro b; simp
    | cons x xs ih =>
      intro b
      simp only [List.foldl_cons]
      obtain ⟨i1, i2, i3⟩ := ih (if img.px b.1 b.2 < img.px x.1 x.2 then x else b)
      refine ⟨?_, ?_, ?_⟩
      · rcases i1 with h | h
        · rw [h]; split
          · exact Or.inr List.mem_cons_self
          · exact Or.inl rfl
        · exact Or.inr (List.mem_cons_of_mem _ h)
      · refine le_trans ?_ i2
        split
        · rename_i h; exact h.le
        · exact le_refl _
      · intro p hp
        rw [List.mem_cons] at hp
        rcases hp with rfl | hp
        · refine le_trans ?_ i2
          split
          · exact le_refl _
          · rename_i h; exact not_lt.1 h
        · exact i3 p hp
  obtain ⟨k1, _, k3⟩ := key ((List.range img.h).flatMap fun i => (List.range img.w).map fun j => (i, j)) (0, 0)
  constructor
  · show img.Inside (firstMaxLoc img)
    rcases k1 with h | h
    · have : firstMaxLoc img = (0, 0) := h
      rw [this]; exact ⟨h1, h2⟩
    · have : firstMaxLoc img ∈ _ := h
      rw [List.mem_flatMap] at this
      obtain ⟨i, hi, hm⟩ := this
      rw [List.mem_map] at hm
      obtain ⟨j, hj, he⟩ := hm
      rw [← he]
      exact ⟨List.mem_range.1 hi, List.mem_range.1 hj⟩
  · intro i j hi hj
    refine k3 (i, j) ?_
    rw [List.mem_flatMap]
    exact ⟨i, List.mem_range.2 hi, List.mem_map.2 ⟨j, List.mem_range.2 hj, rfl⟩⟩

/-- A test image with two spots. -/
def twoSpots : Image Int := ⟨8, 8, fun i j => if i = 2 ∧ j = 3 then 9 else if i = 5 ∧ j = 6 then 7 else 1⟩

/-- The hypotheses of C09 - C12 are met by a non-trivial image. -/
example : findSearchAreas firstMaxLoc 1 2 10 twoSpots = [(0, 2, 3), (1, 5, 6)] := by decide +kernel

/-! ### C09 -/

/-- C09: the detection terminates (the model is a total function), reports at most `maxN` LEDs with the ids
`0, 1, 2, ...`, each inside the image. -/
theorem C09_consecutive_bounded (maxLoc : Image V → Nat × Nat) (hmax : IsMaxLoc maxLoc) (thr : V) (R maxN : Nat)
    (img : Image V) (h1 : 0 < img.h) (h2 : 0 < img.w) :
    (findSearchAreas maxLoc thr R maxN img).length ≤ maxN ∧
    (findSearchAreas maxLoc thr R maxN img).map (·.1) =
      List.range (findSearchAreas maxLoc thr R maxN img).length ∧
    ∀ p ∈ findSearchAreas maxLoc thr R maxN img, img.Inside p.2 := by
  refine ⟨searchLoop_length .., ?_, searchLoop_inside maxLoc hmax thr R _ _ img _ h1 h2⟩
  unfold findSearchAreas
  rw [searchLoop_ids, List.range_eq_range']

/-! ### C10 -/

/-- The relation between the working copy and the original image: same size, every pixel is original or 0. -/
def Dimmed (orig cur : Image V) : Prop :=
  cur.h = orig.h ∧ cur.w = orig.w ∧ ∀ i j, cur.px i j = orig.px i j ∨ cur.px i j = 0

omit [LinearOrder V] in
theorem Dimmed.clear {orig cur : Image V} (h : Dimmed orig cur) (R : Nat) (p : Nat × Nat) :
    Dimmed orig (cur.clear R p) := by
  refine ⟨h.1, h.2.1, fun i j => ?_⟩
  simp only [Image.clear]
  split
  · exact Or.inr rfl
  · exact h.2.2 i j

theorem searchLoop_bright (maxLoc : Image V → Nat × Nat) (thr : V) (hthr : 0 ≤ thr) (R : Nat) (orig : Image V) :
    ∀ n id (img : Image V) mv, Dimmed orig img →
      ∀ p ∈ searchLoop maxLoc thr R n id img mv, thr < orig.px p.2.1 p.2.2 := by
  intro n
  induction n with
  | zero => intro id img mv _ p hp; simp [searchLoop] at hp
  | succ n ih =>
    intro id img mv hd p hp
    simp only [searchLoop] at hp
    split at hp
    · split at hp
      · rename_i _ hv
        rw [List.mem_cons] at hp
        rcases hp with rfl | hp
        · rcases hd.2.2 (maxLoc img).1 (maxLoc img).2 with h | h
          · rw [← h]; exact hv
          · rw [h] at hv; exact absurd hthr (not_le.2 hv)
        · exact ih _ _ _ (hd.clear R _) p hp
      · simp at hp
    · simp at hp

/-- C10: every reported LED is brighter than the threshold in the original image. -/
theorem C10_bright (maxLoc : Image V → Nat × Nat) (thr : V) (hthr : 0 ≤ thr) (R maxN : Nat) (img : Image V) :
    ∀ p ∈ findSearchAreas maxLoc thr R maxN img, thr < img.px p.2.1 p.2.2 :=
  searchLoop_bright maxLoc thr hthr R img _ _ img _ ⟨rfl, rfl, fun _ _ => Or.inl rfl⟩

theorem searchLoop_sorted (maxLoc : Image V → Nat × Nat) (hmax : IsMaxLoc maxLoc) (thr : V) (hthr : 0 ≤ thr) (R : Nat)
    (orig : Image V) :
    ∀ n id (img : Image V) mv, 0 < img.h → 0 < img.w → Dimmed orig img →
      (searchLoop maxLoc thr R n id img mv).Pairwise
        (fun p q => orig.px q.2.1 q.2.2 ≤ orig.px p.2.1 p.2.2) ∧
      ∀ p ∈ searchLoop maxLoc thr R n id img mv,
        orig.px p.2.1 p.2.2 ≤ img.px (maxLoc img).1 (maxLoc img).2 := by
  intro n
  induction n with
  | zero => intro id img mv _ _ _; simp [searchLoop]
  | succ n ih =>
    intro id img mv h1 h2 hd
    simp only [searchLoop]
    split
    · split
      · rename_i _ hv
        set p := maxLoc img with hp
        have hpx : orig.px p.1 p.2 = img.px p.1 p.2 := by
          rcases hd.2.2 p.1 p.2 with h | h
          · exact h.symm
          · rw [h] at hv; exact absurd hthr (not_le.2 hv)
        have hd' := hd.clear R p
        obtain ⟨ih1, ih2⟩ := ih (id + 1) (img.clear R p) (img.px p.1 p.2) h1 h2 hd'
        -- the maximum of the cleared image is at most the current maximum
        have hle : ∀ q ∈ searchLoop maxLoc thr R n (id + 1) (img.clear R p) (img.px p.1 p.2),
            orig.px q.2.1 q.2.2 ≤ img.px p.1 p.2 := by
          intro q hq
          refine (ih2 q hq).trans ?_
          obtain ⟨hin, _⟩ := hmax (img.clear R p) h1 h2
          generalize maxLoc (img.clear R p) = q' at *
          simp only [Image.clear]
          split
          · exact hthr.trans hv.le
          · exact (hmax img h1 h2).2 _ _ hin.1 hin.2
        constructor
        · rw [List.pairwise_cons]
          refine ⟨fun q hq => ?_, ih1⟩
          simp only [hpx]
          exact hle q hq
        · intro q hq
          rw [List.mem_cons] at hq
          rcases hq with rfl | hq
          · exact hpx.le
          · exact hle q hq
      · simp
    · simp

/-- C10: the brightness in the original image never increases with the LED id. -/
theorem C10_sorted_by_brightness (maxLoc : Image V → Nat × Nat) (hmax : IsMaxLoc maxLoc) (thr : V) (hthr : 0 ≤ thr)
    (R maxN : Nat) (img : Image V) (h1 : 0 < img.h) (h2 : 0 < img.w) :
    (findSearchAreas maxLoc thr R maxN img).Pairwise
      (fun p q => img.px q.2.1 q.2.2 ≤ img.px p.2.1 p.2.2) :=
  (searchLoop_sorted maxLoc hmax thr hthr R img _ _ img _ h1 h2 ⟨rfl, rfl, fun _ _ => Or.inl rfl⟩).1

/-! ### C11 -/

/-- The search area of an LED at row `r`, column `c`: rows `[r-R, r+R)`, columns `[c-R, c+R)`. -/
def InArea (R : Nat) (c p : Nat × Nat) : Prop :=
  (c.1 : Int) - R ≤ p.1 ∧ (p.1 : Int) < c.1 + R ∧ (c.2 : Int) - R ≤ p.2 ∧ (p.2 : Int) < c.2 + R

instance (R : Nat) (c p : Nat × Nat) : Decidable (InArea R c p) := by unfold InArea; infer_instance

theorem inSlice_iff (h w R : Nat) (c p : Nat × Nat) (hc1 : R ≤ c.1) (hc2 : R ≤ c.2) (hp1 : p.1 < h) (hp2 : p.2 < w) :
    inSlice h w c.1 c.2 R p.1 p.2 = true ↔ InArea R c p := by
  simp only [inSlice, Bool.and_eq_true, decide_eq_true_eq, mem_sliceIdx, InArea, sliceBound]
  rw [if_neg (by omega), if_neg (by omega), if_neg (by omega), if_neg (by omega)]
  omega

/-- The part cleared by the program always belongs to the search area. -/
theorem inArea_of_inSlice (h w R : Nat) (c p : Nat × Nat) (hs : inSlice h w c.1 c.2 R p.1 p.2 = true) :
    InArea R c p := by
  simp only [inSlice, Bool.and_eq_true, decide_eq_true_eq, mem_sliceIdx, sliceBound] at hs
  obtain ⟨⟨a1, a2, a3⟩, ⟨b1, b2, b3⟩⟩ := hs
  unfold InArea
  split at a2 <;> split at a3 <;> split at b2 <;> split at b3 <;> omega

theorem searchLoop_avoid (maxLoc : Image V → Nat × Nat) (thr : V) (hthr : 0 ≤ thr) (R : Nat) (i j : Nat) :
    ∀ n id (img : Image V) mv, img.px i j = 0 →
      ∀ p ∈ searchLoop maxLoc thr R n id img mv, p.2 ≠ (i, j) := by
  intro n
  induction n with
  | zero => intro id img mv _ p hp; simp [searchLoop] at hp
  | succ n ih =>
    intro id img mv h0 p hp
    simp only [searchLoop] at hp
    split at hp
    · split at hp
      · rename_i _ hv
        rw [List.mem_cons] at hp
        rcases hp with rfl | hp
        · intro he
          simp only [Prod.mk.injEq] at he
          rw [he.1, he.2, h0] at hv
          exact absurd hthr (not_le.2 hv)
        · refine ih _ _ _ ?_ p hp
          simp only [Image.clear]
          split
          · rfl
          · exact h0
      · simp at hp
    · simp at hp

theorem searchLoop_sep (maxLoc : Image V → Nat × Nat) (thr : V) (hthr : 0 ≤ thr) (R : Nat) :
    ∀ n id (img : Image V) mv,
      (searchLoop maxLoc thr R n id img mv).Pairwise
        (fun p q => inSlice img.h img.w p.2.1 p.2.2 R q.2.1 q.2.2 = false) := by
  intro n
  induction n with
  | zero => intro id img mv; simp [searchLoop]
  | succ n ih =>
    intro id img mv
    simp only [searchLoop]
    split
    · split
      · rw [List.pairwise_cons]
        refine ⟨fun q hq => ?_, ih _ (img.clear R (maxLoc img)) _⟩
        by_contra hne
        rw [Bool.not_eq_false] at hne
        refine searchLoop_avoid maxLoc thr hthr R q.2.1 q.2.2 n _ (img.clear R (maxLoc img)) _ ?_ q hq rfl
        simp only [Image.clear]
        rw [if_pos hne]
      · simp
    · simp

/-- The full statement of C11. -/
def SearchAreasSeparate (R : Nat) (l : List (Nat × Nat × Nat)) : Prop :=
  l.Pairwise fun p q => ¬ InArea R p.2 q.2

/-- C11 (partial; missing: LEDs closer than `R` to the upper or left border): an LED whose search area does not reach
over the upper or left border is never followed by an LED inside its search area. -/
theorem C11_separation_partial (maxLoc : Image V → Nat × Nat) (hmax : IsMaxLoc maxLoc) (thr : V) (hthr : 0 ≤ thr)
    (R maxN : Nat) (img : Image V) (h1 : 0 < img.h) (h2 : 0 < img.w) :
    (findSearchAreas maxLoc thr R maxN img).Pairwise
      (fun p q => R ≤ p.2.1 → R ≤ p.2.2 → ¬ InArea R p.2 q.2) := by
  have hin := searchLoop_inside maxLoc hmax thr R maxN 0 img (img.px (maxLoc img).1 (maxLoc img).2) h1 h2
  have hs := searchLoop_sep maxLoc thr hthr R maxN 0 img (img.px (maxLoc img).1 (maxLoc img).2)
  unfold findSearchAreas
  refine List.Pairwise.imp_of_mem ?_ hs
  intro p q hp hq hsl hr hc
  have hq' := hin q hq
  rw [← inSlice_iff img.h img.w R p.2 q.2 hr hc hq'.1 hq'.2, hsl]
  simp

/-- C11: if all reported LEDs keep `R ≥ 1` pixels distance to the upper and left border, search areas are separate
and no pixel is reported twice. -/
theorem C11_separation_interior (maxLoc : Image V → Nat × Nat) (hmax : IsMaxLoc maxLoc) (thr : V) (hthr : 0 ≤ thr)
    (R maxN : Nat) (hR : 0 < R) (img : Image V) (h1 : 0 < img.h) (h2 : 0 < img.w)
    (hint : ∀ p ∈ findSearchAreas maxLoc thr R maxN img, R ≤ p.2.1 ∧ R ≤ p.2.2) :
    SearchAreasSeparate R (findSearchAreas maxLoc thr R maxN img) ∧
    ((findSearchAreas maxLoc thr R maxN img).map (·.2)).Nodup := by
  have hp := C11_separation_partial maxLoc hmax thr hthr R maxN img h1 h2
  have hsep : SearchAreasSeparate R (findSearchAreas maxLoc thr R maxN img) := by
    refine List.Pairwise.imp_of_mem ?_ hp
    intro p q hp hq h
    exact h (hint p hp).1 (hint p hp).2
  refine ⟨hsep, ?_⟩
  rw [List.Nodup, List.pairwise_map]
  refine List.Pairwise.imp ?_ hsep
  intro p q h he
  apply h
  rw [← he]
  unfold InArea
  omega

theorem searchLoop_border (maxLoc : Image V → Nat × Nat) (thr : V) (R : Nat) (img : Image V)
    (hclear : img.clear R (maxLoc img) = img) (hv : thr < img.px (maxLoc img).1 (maxLoc img).2) :
    ∀ n id mv, thr < mv →
      searchLoop maxLoc thr R n id img mv =
        (List.range' id n).map (fun i => (i, (maxLoc img).1, (maxLoc img).2)) := by
  intro n
  induction n with
  | zero => intro id mv _; simp [searchLoop]
  | succ n ih =>
    intro id mv hmv
    simp only [searchLoop]
    rw [if_pos hmv, if_pos hv, hclear, ih _ _ hv, List.range'_succ, List.map_cons]

/-- C11 is violated at the border: if the brightest pixel lies less than `R` rows from the upper border of an image
with at least `2R` rows, nothing is ever cleared, and this one pixel is reported `maxN` times (all other LEDs are
missed). -/
theorem C11_border_false (maxLoc : Image V → Nat × Nat) (thr : V) (R maxN : Nat) (img : Image V)
    (hb : (maxLoc img).1 < R) (hh : 2 * R ≤ img.h) (hv : thr < img.px (maxLoc img).1 (maxLoc img).2) :
    findSearchAreas maxLoc thr R maxN img =
      (List.range maxN).map (fun i => (i, (maxLoc img).1, (maxLoc img).2)) := by
  unfold findSearchAreas
  rw [searchLoop_border maxLoc thr R img ?_ hv _ _ _ hv, List.range_eq_range']
  have : ∀ i j, inSlice img.h img.w (maxLoc img).1 (maxLoc img).2 R i j = false := by
    intro i j
    simp only [inSlice, Bool.and_eq_false_imp, decide_eq_true_eq, mem_sliceIdx, sliceBound]
    rintro ⟨a1, a2, a3⟩
    split at a2 <;> split at a3 <;> omega
  unfold Image.clear
  cases img
  simp only [Image.mk.injEq, true_and]
  funext i j
  simp only at this
  rw [this i j]
  rfl

/-- The statement for all images is false. -/
theorem C11_separation_false :
    ¬ ∀ (img : Image Int) (R maxN : Nat), 0 < R → 0 < img.h → 0 < img.w → (∀ i j, 0 ≤ img.px i j) →
        ∀ maxLoc : Image Int → Nat × Nat, IsMaxLoc maxLoc →
          SearchAreasSeparate R (findSearchAreas maxLoc 0 R maxN img) := by
  intro h
  have h1 := h ⟨4, 4, fun i j => if i = 0 ∧ j = 2 then 5 else 0⟩ 1 2 (by decide) (by decide) (by decide)
    (fun i j => by dsimp only; split <;> decide) firstMaxLoc isMaxLoc_firstMaxLoc
  rw [C11_border_false _ _ _ _ _ (by decide +kernel) (by decide) (by decide +kernel)] at h1
  revert h1
  unfold SearchAreasSeparate
  decide +kernel

/-! ### C12 -/

theorem searchLoop_complete (maxLoc : Image V → Nat × Nat) (hmax : IsMaxLoc maxLoc) (thr : V) (hthr : 0 ≤ thr) (R : Nat) :
    ∀ n id (img : Image V) mv, 0 < img.h → 0 < img.w →
      (∀ i j, i < img.h → j < img.w → img.px i j ≤ mv) →
      (searchLoop maxLoc thr R n id img mv).length < n →
      ∀ i j, i < img.h → j < img.w → thr < img.px i j →
        ∃ p ∈ searchLoop maxLoc thr R n id img mv, inSlice img.h img.w p.2.1 p.2.2 R i j = true := by
  intro n
  induction n with
  | zero => intro id img mv _ _ _ hl; simp at hl
  | succ n ih =>
    intro id img mv h1 h2 hmv hl i j hi hj hij
    simp only [searchLoop] at hl ⊢
    have c1 : thr < mv := hij.trans_le (hmv i j hi hj)
    have c2 : thr < img.px (maxLoc img).1 (maxLoc img).2 := hij.trans_le ((hmax img h1 h2).2 i j hi hj)
    rw [if_pos c1, if_pos c2] at hl ⊢
    by_cases hs : inSlice img.h img.w (maxLoc img).1 (maxLoc img).2 R i j = true
    · exact ⟨_, List.mem_cons_self, hs⟩
    · have hpx : (img.clear R (maxLoc img)).px i j = img.px i j := by
        simp only [Image.clear]; rw [if_neg hs]
      have hmv' : ∀ i j, i < img.h → j < img.w → (img.clear R (maxLoc img)).px i j ≤
          img.px (maxLoc img).1 (maxLoc img).2 := by
        intro i j hi hj
        simp only [Image.clear]
        split
        · exact hthr.trans c2.le
        · exact (hmax img h1 h2).2 i j hi hj
      obtain ⟨p, hp, hps⟩ := ih (id + 1) (img.clear R (maxLoc img)) (img.px (maxLoc img).1 (maxLoc img).2) h1 h2 hmv'
        (by simpa using hl) i j hi hj (hpx ▸ hij)
      exact ⟨p, List.mem_cons_of_mem _ hp, hps⟩

/-- C12: if fewer than `maxN` LEDs are reported, every pixel above the threshold lies in the search area of a reported
LED. -/
theorem C12_complete (maxLoc : Image V → Nat × Nat) (hmax : IsMaxLoc maxLoc) (thr : V) (hthr : 0 ≤ thr) (R maxN : Nat)
    (img : Image V) (h1 : 0 < img.h) (h2 : 0 < img.w)
    (hl : (findSearchAreas maxLoc thr R maxN img).length < maxN) (i j : Nat) (hi : i < img.h) (hj : j < img.w)
    (hij : thr < img.px i j) :
    ∃ p ∈ findSearchAreas maxLoc thr R maxN img, InArea R p.2 (i, j) := by
  obtain ⟨p, hp, hps⟩ := searchLoop_complete maxLoc hmax thr hthr R maxN 0 img _ h1 h2 (hmax img h1 h2).2 hl i j hi hj hij
  exact ⟨p, hp, inArea_of_inSlice img.h img.w R p.2 (i, j) hps⟩

example : ∃ p ∈ findSearchAreas firstMaxLoc (1 : Int) 2 10 twoSpots, InArea 2 p.2 (5, 6) :=
  C12_complete firstMaxLoc isMaxLoc_firstMaxLoc 1 (by decide) 2 10 twoSpots (by decide) (by decide) (by decide +kernel) 5 6
    (by decide) (by decide) (by decide)

example : SearchAreasSeparate 2 (findSearchAreas firstMaxLoc (1 : Int) 2 10 twoSpots) :=
  (C11_separation_interior firstMaxLoc isMaxLoc_firstMaxLoc 1 (by decide) 2 10 (by decide) twoSpots (by decide)
    (by decide) (by decide +kernel)).1

/-! ### C13 -/

theorem percentile_spec (vals : List ℚ) (q : ℚ) (hne : vals ≠ []) (h0 : 0 ≤ q) (h1 : q ≤ 100) :
    ∃ (t : ℚ) (i : Nat) (frac : ℚ) (hi : i < (vals.insertionSort (· ≤ ·)).length),
      percentile vals q = some t ∧
      (i : ℚ) + frac = q / 100 * ((vals.length : ℚ) - 1) ∧ 0 ≤ frac ∧ frac < 1 ∧
      ((∃ hi' : i + 1 < (vals.insertionSort (· ≤ ·)).length,
          t = (vals.insertionSort (· ≤ ·))[i] + frac * ((vals.insertionSort (· ≤ ·))[i + 1] - (vals.insertionSort (· ≤ ·))[i])) ∨
        (i + 1 = (vals.insertionSort (· ≤ ·)).length ∧ frac = 0 ∧ t = (vals.insertionSort (· ≤ ·))[i])) := by
  have hlen : (vals.insertionSort (· ≤ ·)).length = vals.length := List.length_insertionSort _ vals
  unfold percentile
  generalize hs : vals.insertionSort (· ≤ ·) = s at *
  have hN : 0 < vals.length := List.length_pos_iff.2 hne
  have hN' : (1 : ℚ) ≤ (vals.length : ℚ) := by exact_mod_cast hN
  simp only [hlen]
  set pos : ℚ := q / 100 * ((vals.length : ℚ) - 1) with hpos
  have hp0 : 0 ≤ pos := mul_nonneg (by positivity) (by linarith)
  have hp1 : pos ≤ (vals.length : ℚ) - 1 := by
    have : q / 100 ≤ 1 := by rw [div_le_one (by norm_num)]; exact h1
    calc pos ≤ 1 * ((vals.length : ℚ) - 1) := mul_le_mul_of_nonneg_right this (by linarith)
      _ = _ := one_mul _
  have hf0 : 0 ≤ ⌊pos⌋ := Int.floor_nonneg.2 hp0
  have hcast : ((⌊pos⌋.toNat : Nat) : ℚ) = (⌊pos⌋ : ℚ) := by
    have : ((⌊pos⌋.toNat : Nat) : ℤ) = ⌊pos⌋ := Int.toNat_of_nonneg hf0
    exact_mod_cast congrArg (Int.cast : ℤ → ℚ) this
  have hfl := Int.floor_le pos
  have hfl2 := Int.lt_floor_add_one pos
  have hilt : ⌊pos⌋.toNat < vals.length := by
    have : ((⌊pos⌋.toNat : Nat) : ℚ) < (vals.length : ℚ) := by rw [hcast]; linarith
    exact_mod_cast this
  have hg : s[⌊pos⌋.toNat]? = some s[⌊pos⌋.toNat] := List.getElem?_eq_getElem (by omega)
  by_cases hlast : ⌊pos⌋.toNat + 1 < vals.length
  · have hg1 : s[⌊pos⌋.toNat + 1]? = some (s[⌊pos⌋.toNat + 1]'(by omega)) := List.getElem?_eq_getElem (by omega)
    rw [hg, hg1]
    refine ⟨_, ⌊pos⌋.toNat, pos - ⌊pos⌋, by omega, rfl, by rw [hcast]; ring, by linarith, by linarith,
      Or.inl ⟨by omega, rfl⟩⟩
  · have hg1 : s[⌊pos⌋.toNat + 1]? = none := List.getElem?_eq_none (by omega)
    rw [hg, hg1]
    have he : ⌊pos⌋.toNat + 1 = vals.length := by omega
    have hfr : pos - ⌊pos⌋ = 0 := by
      have : ((⌊pos⌋.toNat : Nat) : ℚ) + 1 = (vals.length : ℚ) := by exact_mod_cast he
      rw [hcast] at this; linarith
    refine ⟨_, ⌊pos⌋.toNat, pos - ⌊pos⌋, by omega, rfl, by rw [hcast]; ring, by linarith, by linarith,
      Or.inr ⟨by omega, hfr, rfl⟩⟩

theorem sorted_get (vals : List ℚ) {i j : Nat} (hij : i ≤ j) (hj : j < (vals.insertionSort (· ≤ ·)).length) :
    (vals.insertionSort (· ≤ ·))[i] ≤ (vals.insertionSort (· ≤ ·))[j] := by
  have h := List.pairwise_insertionSort (· ≤ ·) vals
  rcases Nat.lt_or_eq_of_le hij with hlt | rfl
  · have := List.pairwise_iff_getElem.1 h i j (by omega) hj hlt
    simpa using this
  · exact le_refl _

theorem percentile_ge (vals : List ℚ) (t frac : ℚ) (i : Nat) (hi : i < (vals.insertionSort (· ≤ ·)).length)
    (hf0 : 0 ≤ frac)
    (h : (∃ hi' : i + 1 < (vals.insertionSort (· ≤ ·)).length,
          t = (vals.insertionSort (· ≤ ·))[i] + frac * ((vals.insertionSort (· ≤ ·))[i + 1] - (vals.insertionSort (· ≤ ·))[i])) ∨
        (i + 1 = (vals.insertionSort (· ≤ ·)).length ∧ frac = 0 ∧ t = (vals.insertionSort (· ≤ ·))[i])) :
    (vals.insertionSort (· ≤ ·))[i] ≤ t := by
  rcases h with ⟨hi', rfl⟩ | ⟨_, _, rfl⟩
  · have := sorted_get vals (Nat.le_succ i) hi'
    have := mul_nonneg hf0 (sub_nonneg.2 this)
    linarith
  · exact le_refl _

/-- C13: the number of pixels above the threshold is at most `ceil((1 - q/100) (N-1))`. -/
theorem C13_count_above (vals : List ℚ) (q : ℚ) (hne : vals ≠ []) (h0 : 0 ≤ q) (h1 : q ≤ 100) :
    ∃ t, percentile vals q = some t ∧
      ((vals.filter (fun v => decide (t < v))).length : ℤ) ≤ ⌈(1 - q / 100) * ((vals.length : ℚ) - 1)⌉ := by
  obtain ⟨t, i, frac, hi, ht, hpos, hf0, hf1, hcase⟩ := percentile_spec vals q hne h0 h1
  refine ⟨t, ht, ?_⟩
  have hge := percentile_ge vals t frac i hi hf0 hcase
  have hlen : (vals.insertionSort (· ≤ ·)).length = vals.length := List.length_insertionSort _ vals
  have hperm : (vals.insertionSort (· ≤ ·)).Perm vals := List.perm_insertionSort _ vals
  have hcount : (vals.filter (fun v => decide (t < v))).length ≤ vals.length - (i + 1) := by
    rw [← (hperm.filter _).length_eq]
    conv_lhs => rw [← List.take_append_drop (i + 1) (vals.insertionSort (· ≤ ·))]
    rw [List.filter_append, List.length_append]
    have h1 : (List.filter (fun v => decide (t < v)) (List.take (i + 1) (vals.insertionSort (· ≤ ·)))) = [] := by
      rw [List.filter_eq_nil_iff]
      intro a ha
      obtain ⟨j, hj, rfl⟩ := List.getElem_of_mem ha
      rw [List.length_take] at hj
      rw [List.getElem_take]
      have := sorted_get vals (show j ≤ i by omega) hi
      simp only [decide_eq_true_eq, not_lt]
      exact this.trans hge
    rw [h1]
    have := List.length_filter_le (fun v => decide (t < v)) (List.drop (i + 1) (vals.insertionSort (· ≤ ·)))
    rw [List.length_drop] at this
    simpa [hlen] using this
  rw [Int.le_ceil_iff]
  have e : (1 - q / 100) * ((vals.length : ℚ) - 1) = (vals.length : ℚ) - 1 - ((i : ℚ) + frac) := by rw [hpos]; ring
  rw [e]
  have hc : (((vals.filter (fun v => decide (t < v))).length : Nat) : ℚ) ≤ (vals.length : ℚ) - ((i : ℚ) + 1) := by
    have : ((vals.filter (fun v => decide (t < v))).length : Nat) + (i + 1) ≤ vals.length := by omega
    have : (((vals.filter (fun v => decide (t < v))).length : Nat) : ℚ) + ((i : ℚ) + 1) ≤ (vals.length : ℚ) := by
      exact_mod_cast this
    linarith
  push_cast
  linarith

/-- C13: the threshold lies between the smallest and the largest pixel value. -/
theorem C13_between (vals : List ℚ) (q : ℚ) (hne : vals ≠ []) (h0 : 0 ≤ q) (h1 : q ≤ 100) :
    ∃ t, percentile vals q = some t ∧ (∃ a ∈ vals, a ≤ t) ∧ (∃ b ∈ vals, t ≤ b) := by
  obtain ⟨t, i, frac, hi, ht, hpos, hf0, hf1, hcase⟩ := percentile_spec vals q hne h0 h1
  have hge := percentile_ge vals t frac i hi hf0 hcase
  refine ⟨t, ht, ⟨_, (List.mem_insertionSort _).1 (List.getElem_mem hi), hge⟩, ?_⟩
  rcases hcase with ⟨hi', rfl⟩ | ⟨_, _, rfl⟩
  · refine ⟨_, (List.mem_insertionSort _).1 (List.getElem_mem hi'), ?_⟩
    have h2 := sorted_get vals (Nat.le_succ i) hi'
    have := mul_nonneg (sub_nonneg.2 hf1.le) (sub_nonneg.2 h2)
    simp only [Nat.succ_eq_add_one] at this
    linarith
  · exact ⟨_, (List.mem_insertionSort _).1 (List.getElem_mem hi), le_refl _⟩

/-- C13: raising the percentile never lowers the threshold. -/
theorem C13_monotone (vals : List ℚ) (q q' : ℚ) (hne : vals ≠ []) (h0 : 0 ≤ q) (hqq : q ≤ q') (h1 : q' ≤ 100) :
    ∃ t t', percentile vals q = some t ∧ percentile vals q' = some t' ∧ t ≤ t' := by
  obtain ⟨t, i, frac, hi, ht, hpos, hf0, hf1, hcase⟩ := percentile_spec vals q hne h0 (hqq.trans h1)
  obtain ⟨t', i', frac', hi', ht', hpos', hf0', hf1', hcase'⟩ := percentile_spec vals q' hne (h0.trans hqq) h1
  refine ⟨t, t', ht, ht', ?_⟩
  have hN : (1 : ℚ) ≤ (vals.length : ℚ) := by exact_mod_cast List.length_pos_iff.2 hne
  have hle : (i : ℚ) + frac ≤ (i' : ℚ) + frac' := by
    rw [hpos, hpos']
    exact mul_le_mul_of_nonneg_right (by linarith) (by linarith)
  have hii : i ≤ i' := by
    by_contra h
    have : (i' : ℚ) + 1 ≤ (i : ℚ) := by exact_mod_cast (by omega : i' + 1 ≤ i)
    linarith
  have hge' := percentile_ge vals t' frac' i' hi' hf0' hcase'
  rcases Nat.lt_or_eq_of_le hii with hlt | rfl
  · refine le_trans ?_ hge'
    rcases hcase with ⟨hi1, rfl⟩ | ⟨he, _, rfl⟩
    · have h2 := sorted_get vals (show i + 1 ≤ i' by omega) hi'
      have h3 := sorted_get vals (Nat.le_succ i) hi1
      have := mul_nonneg (sub_nonneg.2 hf1.le) (sub_nonneg.2 h3)
      simp only [Nat.succ_eq_add_one] at this
      linarith
    · omega
  · have hff : frac ≤ frac' := by linarith
    rcases hcase with ⟨hi1, rfl⟩ | ⟨he, _, rfl⟩
    · rcases hcase' with ⟨_, rfl⟩ | ⟨he', _⟩
      · have h3 := sorted_get vals (Nat.le_succ i) hi1
        have := mul_le_mul_of_nonneg_right hff (sub_nonneg.2 h3)
        simp only [Nat.succ_eq_add_one] at this
        linarith
      · omega
    · exact hge'

/-- C13: at 100 percent the threshold is the largest value. -/
theorem C13_hundred (vals : List ℚ) (hne : vals ≠ []) :
    ∃ t, percentile vals 100 = some t ∧ ∀ v ∈ vals, v ≤ t := by
  obtain ⟨t, ht, hc⟩ := C13_count_above vals 100 hne (by norm_num) (le_refl _)
  refine ⟨t, ht, ?_⟩
  have : (1 - (100 : ℚ) / 100) * ((vals.length : ℚ) - 1) = 0 := by norm_num
  rw [this, Int.ceil_zero] at hc
  have h0 : vals.filter (fun v => decide (t < v)) = [] := List.length_eq_zero_iff.1 (by omega)
  intro v hv
  rw [List.filter_eq_nil_iff] at h0
  simpa using h0 v hv

/-- C13: at 100 percent nothing is detected. -/
theorem C13_hundred_detects_nothing (img : Image ℚ) (h1 : 0 < img.h) (h2 : 0 < img.w)
    (maxLoc : Image ℚ → Nat × Nat) (hmax : IsMaxLoc maxLoc) (R maxN : Nat) :
    ∃ t, percentile img.values 100 = some t ∧ findSearchAreas maxLoc t R maxN img = [] := by
  have hmem : ∀ i j, i < img.h → j < img.w → img.px i j ∈ img.values := by
    intro i j hi hj
    unfold Image.values
    rw [List.mem_flatMap]
    exact ⟨i, List.mem_range.2 hi, List.mem_map.2 ⟨j, List.mem_range.2 hj, rfl⟩⟩
  obtain ⟨t, ht, hall⟩ := C13_hundred img.values (List.ne_nil_of_mem (hmem 0 0 h1 h2))
  refine ⟨t, ht, ?_⟩
  have hin := (hmax img h1 h2).1
  have := hall _ (hmem _ _ hin.1 hin.2)
  unfold findSearchAreas
  cases maxN with
  | zero => rfl
  | succ n =>
    rw [searchLoop, if_neg (not_lt.2 this)]

/-- `find_search_areas` with its own threshold, /repo/ledsa/data_extraction/step_1_functions.py 27-43. -/
def detect (maxLoc : Image ℚ → Nat × Nat) (q : ℚ) (R maxN : Nat) (img : Image ℚ) :
    Option (List (Nat × Nat × Nat) × ℚ) :=
  match percentile img.values q with
  | some t => some (findSearchAreas maxLoc t R maxN img, t)
  | none => none

/-- C10 and C12 for the whole detection on images with non-negative pixels: the threshold is non-negative, so every
reported LED is above the threshold, LEDs are sorted by brightness, and nothing bright is missed unless the limit is
reached. -/
theorem C10_C12_detect (img : Image ℚ) (h1 : 0 < img.h) (h2 : 0 < img.w)
    (hpix : ∀ i j, i < img.h → j < img.w → 0 ≤ img.px i j)
    (maxLoc : Image ℚ → Nat × Nat) (hmax : IsMaxLoc maxLoc) (q : ℚ) (hq0 : 0 ≤ q) (hq1 : q ≤ 100) (R maxN : Nat) :
    ∃ leds t, detect maxLoc q R maxN img = some (leds, t) ∧
      (∀ p ∈ leds, img.Inside p.2 ∧ t < img.px p.2.1 p.2.2) ∧
      leds.Pairwise (fun p q => img.px q.2.1 q.2.2 ≤ img.px p.2.1 p.2.2) ∧
      (leds.length < maxN → ∀ i j, i < img.h → j < img.w → t < img.px i j → ∃ p ∈ leds, InArea R p.2 (i, j)) := by
  have hmem : img.px 0 0 ∈ img.values := by
    unfold Image.values
    rw [List.mem_flatMap]
    exact ⟨0, List.mem_range.2 h1, List.mem_map.2 ⟨0, List.mem_range.2 h2, rfl⟩⟩
  obtain ⟨t, ht, ⟨a, ha, hat⟩, _⟩ := C13_between img.values q (List.ne_nil_of_mem hmem) hq0 hq1
  have ha0 : 0 ≤ a := by
    unfold Image.values at ha
    rw [List.mem_flatMap] at ha
    obtain ⟨i, hi, hm⟩ := ha
    rw [List.mem_map] at hm
    obtain ⟨j, hj, rfl⟩ := hm
    exact hpix i j (List.mem_range.1 hi) (List.mem_range.1 hj)
  have ht0 : 0 ≤ t := ha0.trans hat
  refine ⟨findSearchAreas maxLoc t R maxN img, t, by rw [detect, ht], ?_, ?_, ?_⟩
  · intro p hp
    exact ⟨(C09_consecutive_bounded maxLoc hmax t R maxN img h1 h2).2.2 p hp, C10_bright maxLoc t ht0 R maxN img p hp⟩
  · exact C10_sorted_by_brightness maxLoc hmax t ht0 R maxN img h1 h2
  · intro hl i j hi hj hij
    exact C12_complete maxLoc hmax t ht0 R maxN img h1 h2 hl i j hi hj hij

example : detect firstMaxLoc 50 1 5 ⟨3, 3, fun i j => if i = 1 ∧ j = 1 then 4 else if i = 2 ∧ j = 2 then 3 else 1⟩ =
    some ([(0, 1, 1), (1, 2, 2)], 1) := by decide +kernel

example : percentile [5, 1, 4, 2] 50 = some 3 := by decide +kernel

end Ledsa
