import Verif.Props.Step1
import Mathlib.Data.Finset.Card
/-
Property C132: LEDs that are separate spots in the photo are found one by one.
-/
namespace Ledsa

variable {V : Type} [LinearOrder V] [Zero V] {ι : Type}

/-- A pixel above the threshold. -/
def Lit (img : Image V) (thr : V) (p : ℕ × ℕ) : Prop := img.Inside p ∧ thr < img.px p.1 p.2

/-- A brightest pixel of its spot. -/
def IsPeak (img : Image V) (thr : V) (spot : ℕ × ℕ → ι) (p : ℕ × ℕ) : Prop :=
  Lit img thr p ∧ ∀ q, Lit img thr q → spot q = spot p → img.px q.1 q.2 ≤ img.px p.1 p.2

/-- The pixels above the threshold form separate spots, numbered by `spot`: the search area of a brightest pixel of a spot does not reach
over the upper or left border, and contains all pixels of the spot and none of the others. -/
structure SeparateSpots (img : Image V) (thr : V) (R : ℕ) (spot : ℕ × ℕ → ι) (spots : Finset ι) : Prop where
  all : ∀ p, Lit img thr p → spot p ∈ spots
  lit : ∀ s ∈ spots, ∃ p, Lit img thr p ∧ spot p = s
  interior : ∀ p, IsPeak img thr spot p → R ≤ p.1 ∧ R ≤ p.2
  own : ∀ p q, IsPeak img thr spot p → Lit img thr q → spot q = spot p → InArea R p q
  others : ∀ p q, IsPeak img thr spot p → Lit img thr q → spot q ≠ spot p → ¬ InArea R p q

theorem searchLoop_spots [DecidableEq ι] (maxLoc : Image V → ℕ × ℕ) (hmax : IsMaxLoc maxLoc) (thr : V) (hthr : 0 ≤ thr) (R : ℕ) (img : Image V)
    (h1 : 0 < img.h) (h2 : 0 < img.w) (spot : ℕ × ℕ → ι) (spots : Finset ι) (hs : SeparateSpots img thr R spot spots) :
    ∀ n id (cur : Image V) mv (found : Finset ι), cur.h = img.h → cur.w = img.w →
      (∀ p, Lit img thr p → spot p ∉ found → cur.px p.1 p.2 = img.px p.1 p.2) →
      (∀ p, img.Inside p → (¬ Lit img thr p ∨ spot p ∈ found) → cur.px p.1 p.2 ≤ thr) →
      (∀ i j, i < img.h → j < img.w → cur.px i j ≤ mv) →
      ((searchLoop maxLoc thr R n id cur mv).map fun l => spot l.2).Nodup ∧
      (∀ l ∈ searchLoop maxLoc thr R n id cur mv, spot l.2 ∈ spots ∧ spot l.2 ∉ found ∧ IsPeak img thr spot l.2) ∧
      (searchLoop maxLoc thr R n id cur mv).length = min n (spots \ found).card := by
  intro n
  induction n with
  | zero => intro id cur mv found _ _ _ _ _; simp [searchLoop]
  | succ n ih =>
    intro id cur mv found e1 e2 hun hdone hmv
    obtain ⟨m1, m2⟩ := hmax cur (by omega) (by omega)
    have m1' : img.Inside (maxLoc cur) := ⟨e1 ▸ m1.1, e2 ▸ m1.2⟩
    -- a pixel of an open spot
    have hopen : ∀ s ∈ spots \ found, thr < mv ∧ thr < cur.px (maxLoc cur).1 (maxLoc cur).2 := by
      intro s hsp
      rw [Finset.mem_sdiff] at hsp
      obtain ⟨p, hp, rfl⟩ := hs.lit s hsp.1
      have hv : thr < cur.px p.1 p.2 := by rw [hun p hp hsp.2]; exact hp.2
      exact ⟨hv.trans_le (hmv p.1 p.2 hp.1.1 hp.1.2), hv.trans_le (m2 p.1 p.2 (e1 ▸ hp.1.1) (e2 ▸ hp.1.2))⟩
    simp only [searchLoop]
    by_cases c1 : thr < mv
    swap
    · rw [if_neg c1]
      have hz : spots \ found = ∅ := by
        rw [Finset.eq_empty_iff_forall_notMem]
        intro s hsp
        exact c1 (hopen s hsp).1
      simp [hz]
    rw [if_pos c1]
    by_cases c2 : thr < cur.px (maxLoc cur).1 (maxLoc cur).2
    swap
    · rw [if_neg c2]
      have hz : spots \ found = ∅ := by
        rw [Finset.eq_empty_iff_forall_notMem]
        intro s hsp
        exact c2 (hopen s hsp).2
      simp [hz]
    rw [if_pos c2]
    set p := maxLoc cur with hp
    have hlitp : Lit img thr p ∧ spot p ∉ found := by
      by_contra hc
      refine absurd (hdone p m1' ?_) (not_le.2 c2)
      by_cases hl : Lit img thr p
      · exact Or.inr (by_contra fun h => hc ⟨hl, h⟩)
      · exact Or.inl hl
    have hpeak : IsPeak img thr spot p := by
      refine ⟨hlitp.1, ?_⟩
      intro q hq hqs
      rw [← hun p hlitp.1 hlitp.2, ← hun q hq (hqs ▸ hlitp.2)]
      exact m2 q.1 q.2 (e1 ▸ hq.1.1) (e2 ▸ hq.1.2)
    obtain ⟨b1, b2⟩ := hs.interior p hpeak
    have hslice : ∀ q : ℕ × ℕ, img.Inside q → (inSlice cur.h cur.w p.1 p.2 R q.1 q.2 = true ↔ InArea R p q) := by
      intro q hq
      exact inSlice_iff cur.h cur.w R p q b1 b2 (e1.symm ▸ hq.1) (e2.symm ▸ hq.2)
    obtain ⟨i1, i2, i3⟩ := ih (id + 1) (cur.clear R p) (cur.px p.1 p.2) (insert (spot p) found) e1 e2 (by
        intro q hq hqf
        rw [Finset.mem_insert, not_or] at hqf
        have hna : ¬ InArea R p q := hs.others p q hpeak hq hqf.1
        simp only [Image.clear]
        rw [if_neg (fun h => hna ((hslice q hq.1).1 h))]
        exact hun q hq hqf.2) (by
        intro q hq hqd
        simp only [Image.clear]
        split
        · exact hthr
        · rename_i hns
          apply hdone q hq
          rcases hqd with h | h
          · exact Or.inl h
          · rw [Finset.mem_insert] at h
            rcases h with h | h
            · by_cases hl : Lit img thr q
              · exact absurd ((hslice q hq).2 (hs.own p q hpeak hl h)) hns
              · exact Or.inl hl
            · exact Or.inr h) (by
        intro i j hi hj
        simp only [Image.clear]
        split
        · exact hthr.trans c2.le
        · exact m2 i j (e1 ▸ hi) (e2 ▸ hj))
    refine ⟨?_, ?_, ?_⟩
    · rw [List.map_cons, List.nodup_cons]
      refine ⟨?_, i1⟩
      rw [List.mem_map]
      rintro ⟨l, hl, hls⟩
      obtain ⟨_, hnf, _⟩ := i2 l hl
      exact hnf (Finset.mem_insert.2 (Or.inl hls))
    · intro l hl
      rcases List.mem_cons.1 hl with rfl | hl
      · exact ⟨hs.all p hlitp.1, hlitp.2, hpeak⟩
      · obtain ⟨j1, j2, j3⟩ := i2 l hl
        exact ⟨j1, fun h => j2 (Finset.mem_insert_of_mem h), j3⟩
    · rw [List.length_cons, i3]
      have hmem : spot p ∈ spots \ found := Finset.mem_sdiff.2 ⟨hs.all p hlitp.1, hlitp.2⟩
      have hcard : (spots \ insert (spot p) found).card + 1 = (spots \ found).card := by
        have he : spots \ insert (spot p) found = (spots \ found).erase (spot p) := by
          ext x
          simp only [Finset.mem_sdiff, Finset.mem_insert, Finset.mem_erase, not_or]
          tauto
        rw [he, Finset.card_erase_add_one hmem]
      omega

/-- **C132.** If the LEDs are separate spots in the photo, and there are at most `maxN`, step 1 reports every LED exactly once, at a brightest
pixel of its spot; if there are more, it reports `maxN` different ones. -/
theorem C132_one_by_one_partial [DecidableEq ι] (maxLoc : Image V → ℕ × ℕ) (hmax : IsMaxLoc maxLoc) (thr : V) (hthr : 0 ≤ thr) (R maxN : ℕ)
    (img : Image V) (h1 : 0 < img.h) (h2 : 0 < img.w) (spot : ℕ × ℕ → ι) (spots : Finset ι) (hs : SeparateSpots img thr R spot spots) :
    ((findSearchAreas maxLoc thr R maxN img).map fun l => spot l.2).Nodup ∧
    (∀ l ∈ findSearchAreas maxLoc thr R maxN img, spot l.2 ∈ spots ∧ IsPeak img thr spot l.2) ∧
    (findSearchAreas maxLoc thr R maxN img).length = min maxN spots.card ∧
    (spots.card ≤ maxN → ∀ s ∈ spots, ∃ l ∈ findSearchAreas maxLoc thr R maxN img, spot l.2 = s) := by
  obtain ⟨i1, i2, i3⟩ := searchLoop_spots maxLoc hmax thr hthr R img h1 h2 spot spots hs maxN 0 img (img.px (maxLoc img).1 (maxLoc img).2) ∅
    rfl rfl (fun _ _ _ => rfl) (fun p hp h => by
      rcases h with h | h
      · exact not_lt.1 fun hl => h ⟨hp, hl⟩
      · simp at h) (hmax img h1 h2).2
  change ((findSearchAreas maxLoc thr R maxN img).map fun l => spot l.2).Nodup at i1
  change (findSearchAreas maxLoc thr R maxN img).length = _ at i3
  rw [Finset.sdiff_empty] at i3
  refine ⟨i1, fun l hl => ⟨(i2 l hl).1, (i2 l hl).2.2⟩, i3, ?_⟩
  intro hc s hsp
  rw [Nat.min_eq_right hc] at i3
  have hsub : ((findSearchAreas maxLoc thr R maxN img).map fun l => spot l.2).toFinset ⊆ spots := by
    intro x hx
    rw [List.mem_toFinset, List.mem_map] at hx
    obtain ⟨l, hl, rfl⟩ := hx
    exact (i2 l hl).1
  have heq := Finset.eq_of_subset_of_card_le hsub (by
    rw [List.toFinset_card_of_nodup i1, List.length_map]
    exact i3.ge)
  rw [← heq, List.mem_toFinset, List.mem_map] at hsp
  exact hsp

omit [Zero V] in
/-- **C132**: it is enough that all pixels of a spot are less than `R` rows and columns from each other, that different spots are more than `R` rows or
columns apart, and that no spot is closer than `R` to the upper or left border. -/
theorem C132_distances (img : Image V) (thr : V) (R : ℕ) (spot : ℕ × ℕ → ι) (spots : Finset ι)
    (hall : ∀ p, Lit img thr p → spot p ∈ spots) (hlit : ∀ s ∈ spots, ∃ p, Lit img thr p ∧ spot p = s)
    (hborder : ∀ p, Lit img thr p → R ≤ p.1 ∧ R ≤ p.2)
    (hsmall : ∀ p q : ℕ × ℕ, Lit img thr p → Lit img thr q → spot p = spot q → q.1 < p.1 + R ∧ q.2 < p.2 + R)
    (hfar : ∀ p q : ℕ × ℕ, Lit img thr p → Lit img thr q → spot p ≠ spot q →
      p.1 + R < q.1 ∨ q.1 + R < p.1 ∨ p.2 + R < q.2 ∨ q.2 + R < p.2) : SeparateSpots img thr R spot spots := by
  refine ⟨hall, hlit, fun p hp => hborder p hp.1, ?_, ?_⟩
  · intro p q hp hq h
    obtain ⟨a1, a2⟩ := hsmall p q hp.1 hq h.symm
    obtain ⟨a3, a4⟩ := hsmall q p hq hp.1 h
    unfold InArea
    omega
  · intro p q hp hq h
    have := hfar p q hp.1 hq (Ne.symm h)
    unfold InArea
    omega

/-- The test image with two spots, told apart by the row. -/
theorem twoSpots_separate : SeparateSpots twoSpots 1 2 (fun p => decide (p.1 = 2)) {true, false} := by
  have hl : ∀ p, Lit twoSpots 1 p ↔ p = (2, 3) ∨ p = (5, 6) := by
    rintro ⟨i, j⟩
    unfold Lit Image.Inside twoSpots
    simp only [Prod.mk.injEq]
    constructor
    · rintro ⟨_, h⟩
      split at h
      · left; assumption
      · split at h
        · right; assumption
        · simp at h
    · rintro (⟨rfl, rfl⟩ | ⟨rfl, rfl⟩) <;> decide
  apply C132_distances
  · intro p hp
    cases decide (p.1 = 2) <;> simp
  · intro s _
    cases s
    · exact ⟨(5, 6), (hl _).2 (Or.inr rfl), by decide⟩
    · exact ⟨(2, 3), (hl _).2 (Or.inl rfl), by decide⟩
  · intro p hp
    rcases (hl p).1 hp with rfl | rfl <;> decide
  · intro p q hp hq h
    rcases (hl p).1 hp with rfl | rfl <;> rcases (hl q).1 hq with rfl | rfl <;> revert h <;> decide
  · intro p q hp hq h
    rcases (hl p).1 hp with rfl | rfl <;> rcases (hl q).1 hq with rfl | rfl <;> revert h <;> decide

example : (findSearchAreas firstMaxLoc 1 2 10 twoSpots).length = 2 :=
  (C132_one_by_one_partial firstMaxLoc isMaxLoc_firstMaxLoc 1 (by decide) 2 10 twoSpots (by decide) (by decide) _ _ twoSpots_separate).2.2.1

/-- A spot of two pixels. -/
def widePhoto : Image ℤ := ⟨8, 8, fun i j => if i = 3 ∧ j = 3 then 9 else if i = 3 ∧ j = 5 then 5 else if i = 3 ∧ j = 4 then 7 else 0⟩

/-- **C132 refuted** for spots that reach exactly `R` pixels from their brightest pixel, the search area radius: the search area has one row and
one column less on the lower right side, and the LED is reported twice. -/
theorem C132_radius_false : ¬ ∀ (img : Image ℤ) (thr : ℤ) (R maxN : ℕ) (c : ℕ × ℕ), 0 ≤ thr → 0 < img.h → 0 < img.w → R ≤ c.1 → R ≤ c.2 → Lit img thr c →
    (∀ p, Lit img thr p → img.px p.1 p.2 ≤ img.px c.1 c.2) →
    (∀ p : ℕ × ℕ, Lit img thr p → c.1 ≤ p.1 + R ∧ p.1 ≤ c.1 + R ∧ c.2 ≤ p.2 + R ∧ p.2 ≤ c.2 + R) →
    (findSearchAreas firstMaxLoc thr R maxN img).length ≤ 1 := by
  intro h
  have hl : ∀ p, Lit widePhoto 1 p → p = (3, 3) ∨ p = (3, 4) ∨ p = (3, 5) := by
    rintro ⟨i, j⟩ ⟨_, h⟩
    unfold widePhoto at h
    simp only [Prod.mk.injEq] at h ⊢
    split at h
    · left; assumption
    · split at h
      · right; right; assumption
      · split at h
        · right; left; assumption
        · simp at h
  have := h widePhoto 1 2 10 (3, 3) (by decide) (by decide) (by decide) (by decide) (by decide) ⟨⟨by decide, by decide⟩, by decide⟩
    (by intro p hp; rcases hl p hp with rfl | rfl | rfl <;> decide)
    (by intro p hp; rcases hl p hp with rfl | rfl | rfl <;> decide)
  revert this
  decide +kernel

end Ledsa
