import Verif.Props.Detection
import Mathlib.Data.Finset.Prod
/-
Properties C11 and C132 at the upper and left border: the exact behaviour of step 1.
-/
namespace Ledsa

variable {V : Type} [LinearOrder V] [Zero V]

/-- Less than `R` pixels from the upper or left border of an image with at least `2R` rows and columns there. -/
def NearBorder (img : Image V) (R : ℕ) (p : ℕ × ℕ) : Prop := (p.1 < R ∧ 2 * R ≤ img.h) ∨ (p.2 < R ∧ 2 * R ≤ img.w)

omit [LinearOrder V] [Zero V] in
/-- Nothing is cleared near the border. -/
theorem inSlice_nearBorder (img : Image V) (R : ℕ) (p : ℕ × ℕ) (hb : NearBorder img R p) (i j : ℕ) :
    inSlice img.h img.w p.1 p.2 R i j = false := by
  rw [Bool.eq_false_iff]
  intro h
  simp only [inSlice, Bool.and_eq_true, decide_eq_true_eq, mem_sliceIdx, sliceBound] at h
  obtain ⟨⟨a1, a2, a3⟩, ⟨b1, b2, b3⟩⟩ := h
  rcases hb with ⟨c1, c2⟩ | ⟨c1, c2⟩
  · split at a2 <;> split at a3 <;> omega
  · split at b2 <;> split at b3 <;> omega

omit [LinearOrder V] in
theorem clear_nearBorder (img : Image V) (R : ℕ) (p : ℕ × ℕ) (hb : NearBorder img R p) : img.clear R p = img := by
  have := inSlice_nearBorder img R p hb
  unfold Image.clear
  cases img
  simp only [Image.mk.injEq, true_and]
  funext i j
  simp only at this
  rw [this i j]
  rfl

theorem searchLoop_stuck (maxLoc : Image V → ℕ × ℕ) (thr : V) (R : ℕ) (p : ℕ × ℕ) (k : ℕ) :
    ∀ n id (img : Image V) mv x, NearBorder img R p → (searchLoop maxLoc thr R n id img mv)[k]? = some (x, p) →
      ∀ m, k ≤ m → m < n → (searchLoop maxLoc thr R n id img mv)[m]? = some (id + m, p) := by
  induction k with
  | zero =>
    intro n id img mv x hb h m _ hm
    cases n with
    | zero => omega
    | succ n =>
      simp only [searchLoop] at h
      split at h
      · rename_i c1
        split at h
        · rename_i c2
          simp only [List.getElem?_cons_zero, Option.some.injEq, Prod.mk.injEq] at h
          have hp : maxLoc img = p := h.2
          rw [searchLoop_border maxLoc thr R img (by rw [hp]; exact clear_nearBorder img R p hb) c2 _ _ _ c1, List.getElem?_map,
            List.getElem?_range' hm, hp]
          simp
        · simp at h
      · simp at h
  | succ k ih =>
    intro n id img mv x hb h m hk hm
    cases n with
    | zero => omega
    | succ n =>
      obtain ⟨m, rfl⟩ : ∃ m', m = m' + 1 := ⟨m - 1, by omega⟩
      simp only [searchLoop] at h ⊢
      split at h
      · rename_i c1
        split at h
        · rename_i c2
          rw [if_pos c1, if_pos c2]
          simp only [List.getElem?_cons_succ] at h ⊢
          rw [ih n (id + 1) (img.clear R (maxLoc img)) _ x hb h m (by omega) (by omega)]
          congr 2
          omega
        · simp at h
      · simp at h

/-- **C11, C132 refuted at the border**, exactly what happens: once an LED near the upper or left border is reported, every later report up to the limit is
this same pixel. -/
theorem C132_stuck (maxLoc : Image V → ℕ × ℕ) (thr : V) (R maxN : ℕ) (img : Image V) (p : ℕ × ℕ) (k x : ℕ) (hb : NearBorder img R p)
    (h : (findSearchAreas maxLoc thr R maxN img)[k]? = some (x, p)) :
    (∀ m, k ≤ m → m < maxN → (findSearchAreas maxLoc thr R maxN img)[m]? = some (m, p)) ∧
    (findSearchAreas maxLoc thr R maxN img).length = maxN := by
  have hs := searchLoop_stuck maxLoc thr R p k maxN 0 img (img.px (maxLoc img).1 (maxLoc img).2) x hb h
  have h1 : ∀ m, k ≤ m → m < maxN → (findSearchAreas maxLoc thr R maxN img)[m]? = some (m, p) := by
    intro m hk hm
    have := hs m hk hm
    rw [Nat.zero_add] at this
    exact this
  refine ⟨h1, le_antisymm (searchLoop_length ..) ?_⟩
  have hk := (List.getElem?_eq_some_iff.1 h).1
  have hk' : (findSearchAreas maxLoc thr R maxN img).length ≤ maxN := searchLoop_length ..
  by_contra hlt
  have := h1 (maxN - 1) (by omega) (by omega)
  have := (List.getElem?_eq_some_iff.1 this).1
  omega

/-- **C132 refuted at the border**: no LED darker than one reported near the upper or left border is ever reported. -/
theorem C132_darker_lost (maxLoc : Image V → ℕ × ℕ) (hmax : IsMaxLoc maxLoc) (thr : V) (hthr : 0 ≤ thr) (R maxN : ℕ) (img : Image V)
    (h1 : 0 < img.h) (h2 : 0 < img.w) (l : ℕ × ℕ × ℕ) (hl : l ∈ findSearchAreas maxLoc thr R maxN img) (hb : NearBorder img R l.2) :
    ∀ q ∈ findSearchAreas maxLoc thr R maxN img, img.px l.2.1 l.2.2 ≤ img.px q.2.1 q.2.2 := by
  intro q hq
  obtain ⟨k, hk⟩ := List.mem_iff_getElem?.1 hl
  obtain ⟨m, hm⟩ := List.mem_iff_getElem?.1 hq
  obtain ⟨a, b⟩ := C132_stuck maxLoc thr R maxN img l.2 k l.1 hb hk
  have hmlt := (List.getElem?_eq_some_iff.1 hm).1
  rcases Nat.lt_or_ge m k with h | h
  · have hs := C10_sorted_by_brightness maxLoc hmax thr hthr R maxN img h1 h2
    rw [List.pairwise_iff_getElem] at hs
    obtain ⟨hk1, hk2⟩ := List.getElem?_eq_some_iff.1 hk
    obtain ⟨hm1, hm2⟩ := List.getElem?_eq_some_iff.1 hm
    have := hs m k hm1 hk1 h
    rw [hk2, hm2] at this
    exact this
  · have := a m h (b ▸ hmlt)
    rw [hm, Option.some.injEq] at this
    rw [this]

/-- **C132 refuted at the border**: a bright pixel near the upper or left border that is in the search area of no bright pixel away from the border makes
step 1 report as many LEDs as the limit allows, however few there are. -/
theorem C132_border_false (maxLoc : Image V → ℕ × ℕ) (hmax : IsMaxLoc maxLoc) (thr : V) (hthr : 0 ≤ thr) (R maxN : ℕ) (img : Image V)
    (h1 : 0 < img.h) (h2 : 0 < img.w) (p : ℕ × ℕ) (hp : Lit img thr p)
    (halone : ∀ q, Lit img thr q → InArea R q p → NearBorder img R q) :
    (findSearchAreas maxLoc thr R maxN img).length = maxN := by
  by_contra hne
  have hle : (findSearchAreas maxLoc thr R maxN img).length ≤ maxN := searchLoop_length ..
  obtain ⟨l, hl, hs⟩ := searchLoop_complete maxLoc hmax thr hthr R maxN 0 img _ h1 h2 (hmax img h1 h2).2
    (lt_of_le_of_ne hle hne) p.1 p.2 hp.1.1 hp.1.2 hp.2
  have hlit : Lit img thr l.2 := ⟨searchLoop_inside maxLoc hmax thr R maxN 0 img _ h1 h2 l hl, C10_bright maxLoc thr hthr R maxN img l hl⟩
  have := halone l.2 hlit (inArea_of_inSlice img.h img.w R l.2 p hs)
  rw [inSlice_nearBorder img R l.2 this] at hs
  cases hs

/-- **C132**: with a limit above the number of bright pixels the list then ends with copies of one pixel near the border. -/
theorem C132_border_copies (maxLoc : Image V → ℕ × ℕ) (hmax : IsMaxLoc maxLoc) (thr : V) (hthr : 0 ≤ thr) (R maxN : ℕ) (hR : 0 < R) (img : Image V)
    (hh : 2 * R ≤ img.h) (hw : 2 * R ≤ img.w) (bright : Finset (ℕ × ℕ)) (hbr : ∀ p, Lit img thr p → p ∈ bright) (hN : bright.card < maxN)
    (p : ℕ × ℕ) (hp : Lit img thr p) (halone : ∀ q, Lit img thr q → InArea R q p → NearBorder img R q) :
    ∃ q, NearBorder img R q ∧ Lit img thr q ∧
      ∀ m, bright.card ≤ m → m < maxN → (findSearchAreas maxLoc thr R maxN img)[m]? = some (m, q) := by
  have h1 : 0 < img.h := by omega
  have h2 : 0 < img.w := by omega
  have hlen := C132_border_false maxLoc hmax thr hthr R maxN img h1 h2 p hp halone
  have hlit : ∀ l ∈ findSearchAreas maxLoc thr R maxN img, Lit img thr l.2 := fun l hl =>
    ⟨searchLoop_inside maxLoc hmax thr R maxN 0 img _ h1 h2 l hl, C10_bright maxLoc thr hthr R maxN img l hl⟩
  have hsep := searchLoop_sep maxLoc thr hthr R maxN 0 img (img.px (maxLoc img).1 (maxLoc img).2)
  -- some report among the first `bright.card + 1` is near the border
  have hex : ∃ k, k ≤ bright.card ∧ ∃ l, (findSearchAreas maxLoc thr R maxN img)[k]? = some l ∧ NearBorder img R l.2 := by
    by_contra hno
    push Not at hno
    have hnd : (((findSearchAreas maxLoc thr R maxN img).take (bright.card + 1)).map (·.2)).Nodup := by
      rw [List.Nodup, List.pairwise_map]
      refine List.Pairwise.imp_of_mem ?_ (hsep.sublist (List.take_sublist (bright.card + 1) _))
      intro a b ha hb hab he
      obtain ⟨k, hk⟩ := List.mem_iff_getElem?.1 ha
      rw [List.getElem?_take] at hk
      split at hk
      swap
      · cases hk
      have hn := hno k (by omega) a hk
      have ha' := (hlit a (List.mem_of_mem_take ha)).1
      unfold NearBorder at hn
      rw [← he] at hab
      have := (inSlice_iff img.h img.w R a.2 a.2 (by omega) (by omega) ha'.1 ha'.2).2 (by unfold InArea; omega)
      rw [hab] at this
      cases this
    have hc := Finset.card_le_card (s := (((findSearchAreas maxLoc thr R maxN img).take (bright.card + 1)).map (·.2)).toFinset) (t := bright) (by
      intro q hq
      rw [List.mem_toFinset, List.mem_map] at hq
      obtain ⟨l, hl, rfl⟩ := hq
      exact hbr _ (hlit l (List.mem_of_mem_take hl)))
    rw [List.toFinset_card_of_nodup hnd, List.length_map, List.length_take, hlen] at hc
    omega
  obtain ⟨k, hk, l, hl, hb⟩ := hex
  refine ⟨l.2, hb, hlit l (List.mem_of_getElem? hl), ?_⟩
  intro m hm hm'
  exact (C132_stuck maxLoc thr R maxN img l.2 k l.1 hb hl).1 m (by omega) hm'

/-- Three LEDs, the second brightest in row 1. -/
def borderPhoto : Image ℤ := ⟨8, 8, fun i j => if i = 1 ∧ j = 4 then 7 else if i = 5 ∧ j = 2 then 9 else if i = 5 ∧ j = 6 then 5 else 0⟩

example : findSearchAreas firstMaxLoc 1 2 5 borderPhoto = [(0, 5, 2), (1, 1, 4), (2, 1, 4), (3, 1, 4), (4, 1, 4)] := by decide +kernel

example : ∀ m, 1 ≤ m → m < 1300 → (findSearchAreas firstMaxLoc 1 2 1300 borderPhoto)[m]? = some (m, 1, 4) := by
  have h : ∀ n, (searchLoop firstMaxLoc 1 2 (n + 2) 0 borderPhoto 9)[1]? = some (1, 1, 4) := by
    intro n
    have a : firstMaxLoc borderPhoto = (5, 2) := by decide +kernel
    have b : firstMaxLoc (borderPhoto.clear 2 (5, 2)) = (1, 4) := by decide +kernel
    simp only [searchLoop, a, b]
    rw [if_pos (by decide), if_pos (by decide), if_pos (by decide), if_pos (by decide)]
    rfl
  have h9 : borderPhoto.px (firstMaxLoc borderPhoto).1 (firstMaxLoc borderPhoto).2 = 9 := by decide +kernel
  exact (C132_stuck firstMaxLoc 1 2 1300 borderPhoto (1, 4) 1 1 (Or.inl (by decide)) (by
    unfold findSearchAreas
    rw [h9]
    exact h 1298)).1

end Ledsa
