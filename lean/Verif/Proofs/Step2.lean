import Verif.Model.Step2
import Mathlib.Data.List.Nodup
import Mathlib.Data.List.Perm.Basic
import Mathlib.Data.List.Perm.Subperm
import Mathlib.Data.List.Forall2
import Mathlib.Tactic.Common
/-
Helper lemmas for step 2.
-/
namespace Ledsa

section
variable {P D : Type} [LinearOrder D]

/-- The LED ids of a dictionary. -/
def LedDict.keys (d : LedDict P) : List Nat := List.map (·.1) d

theorem LedDict.keys_del (d : LedDict P) (i : Nat) : (d.del i).keys = d.keys.filter (· ≠ i) := by
  unfold LedDict.keys LedDict.del
  rw [List.filter_map]
  rfl

theorem LedDict.mem_keys {d : LedDict P} {e : Nat × P} (h : e ∈ d) : e.1 ∈ d.keys := List.mem_map_of_mem h

theorem LedDict.del_sublist (d : LedDict P) (i : Nat) : (d.del i).Sublist d := List.filter_sublist

theorem LedDict.keys_del_nodup {d : LedDict P} (h : d.keys.Nodup) (i : Nat) : (d.del i).keys.Nodup := by
  rw [LedDict.keys_del]; exact h.filter _

theorem LedDict.notMem_keys_del (d : LedDict P) (i : Nat) : i ∉ (d.del i).keys := by
  simp [LedDict.keys_del]

theorem LedDict.perm_del {d : LedDict P} (h : d.keys.Nodup) {i : Nat} (hi : i ∈ d.keys) :
    (i :: (d.del i).keys).Perm d.keys := by
  rw [LedDict.keys_del]
  have : (d.keys.filter (· ≠ i)) = d.keys.erase i := by
    rw [h.erase_eq_filter]
    congr 1
    funext x
    simp [bne, BEq.beq]
    
  rw [this]
  exact (List.perm_cons_erase hi).symm

theorem LedDict.length_del {d : LedDict P} (h : d.keys.Nodup) {i : Nat} (hi : i ∈ d.keys) :
    (d.del i).length + 1 = d.length := by
  have := (LedDict.perm_del h hi).length_eq
  simpa [LedDict.keys] using this

theorem LedDict.find_eq_some {d : LedDict P} (h : d.keys.Nodup) {i : Nat} {p : P} :
    d.find i = some p ↔ (i, p) ∈ d := by
  induction d with
  | nil => simp [LedDict.find]
  | cons e t ih =>
    obtain ⟨j, q⟩ := e
    have hn : j ∉ LedDict.keys t ∧ (LedDict.keys t).Nodup := by simpa [LedDict.keys] using h
    by_cases hij : j = i
    · subst hij
      simp only [LedDict.find, List.find?_cons, decide_true, Option.map_some, Option.some.injEq, List.mem_cons,
        Prod.mk.injEq, true_and]
      constructor
      · exact fun h => Or.inl h.symm
      · rintro (h | h)
        · exact h.symm
        · exact absurd (LedDict.mem_keys h) hn.1
    · have : LedDict.find ((j, q) :: t) i = LedDict.find t i := by simp [LedDict.find, hij]
      rw [this, ih hn.2]
      simp [Ne.symm hij]

theorem LedDict.mem_del {d : LedDict P} {i : Nat} {e : Nat × P} : e ∈ d.del i ↔ e ∈ d ∧ e.1 ≠ i := by
  simp [LedDict.del]

theorem firstMin_none {α : Type} {key : α → D} {l : List α} : firstMin key l = none ↔ l = [] := by
  cases l <;> simp [firstMin]

theorem foldl_min_spec {α : Type} (key : α → D) (l : List α) : ∀ b,
    let m := l.foldl (fun b y => if key y < key b then y else b) b
    (m = b ∨ m ∈ l) ∧ key m ≤ key b ∧ ∀ y ∈ l, key m ≤ key y := by
  induction l with
  | nil => intro b; simp
  | cons y t ih =>
    intro b
    simp only [List.foldl_cons]
    obtain ⟨h1, h2, h3⟩ := ih (if key y < key b then y else b)
    split at h1
    · rename_i hlt
      simp only [hlt, if_true] at h2 h3 ⊢
      refine ⟨Or.inr ?_, le_trans h2 (le_of_lt hlt), ?_⟩
      · rcases h1 with h | h
        · rw [h]; exact List.mem_cons_self
        · exact List.mem_cons_of_mem _ h
      · intro z hz
        rcases List.mem_cons.1 hz with rfl | hz
        · exact h2
        · exact h3 z hz
    · rename_i hlt
      simp only [hlt, if_false] at h2 h3 ⊢
      refine ⟨h1.imp id (List.mem_cons_of_mem _), h2, ?_⟩
      intro z hz
      rcases List.mem_cons.1 hz with rfl | hz
      · exact le_trans h2 (not_lt.1 hlt)
      · exact h3 z hz

theorem firstMin_spec {α : Type} {key : α → D} {l : List α} {x : α} (h : firstMin key l = some x) :
    x ∈ l ∧ ∀ y ∈ l, key x ≤ key y := by
  cases l with
  | nil => simp [firstMin] at h
  | cons b t =>
    simp only [firstMin, Option.some.injEq] at h
    obtain ⟨h1, h2, h3⟩ := foldl_min_spec key t b
    rw [h] at h1 h2 h3
    refine ⟨?_, ?_⟩
    · rcases h1 with h | h
      · rw [h]; exact List.mem_cons_self
      · exact List.mem_cons_of_mem _ h
    · intro y hy
      rcases List.mem_cons.1 hy with rfl | hy
      · exact h2
      · exact h3 y hy

theorem neighbours_spec (dist : P → P → D) (loc : P) : ∀ n (d : LedDict P), d.keys.Nodup →
    let S := neighbours dist loc n d
    (∀ e ∈ S, e ∈ d) ∧ S.Nodup ∧ S.length = min n d.length ∧
      ∀ e ∈ S, ∀ f ∈ d, f ∉ S → dist loc e.2 ≤ dist loc f.2 := by
  intro n
  induction n with
  | zero => intro d _; simp [neighbours]
  | succ n ih =>
    intro d hd
    cases hm : firstMin (fun e => dist loc e.2) d with
    | none =>
      have : d = [] := firstMin_none.1 hm
      subst this
      simp [neighbours, firstMin]
    | some e =>
      obtain ⟨he, hmin⟩ := firstMin_spec hm
      obtain ⟨h1, h2, h3, h4⟩ := ih (d.del e.1) (LedDict.keys_del_nodup hd _)
      simp only [neighbours, hm]
      refine ⟨?_, ?_, ?_, ?_⟩
      · intro x hx
        rcases List.mem_cons.1 hx with rfl | hx
        · exact he
        · exact (LedDict.mem_del.1 (h1 x hx)).1
      · refine List.nodup_cons.2 ⟨fun h => ?_, h2⟩
        exact (LedDict.mem_del.1 (h1 e h)).2 rfl
      · have := LedDict.length_del hd (LedDict.mem_keys he)
        simp only [List.length_cons, h3]
        omega
      · intro x hx f hf hfs
        rcases List.mem_cons.1 hx with rfl | hx
        · exact hmin f hf
        · have hfe : f.1 ≠ e.1 := by
            intro h
            have : f = e := by
              have h1 := (LedDict.find_eq_some hd (i := f.1) (p := f.2)).2 hf
              have h2 := (LedDict.find_eq_some hd (i := e.1) (p := e.2)).2 he
              rw [h, h2] at h1
              exact Prod.ext h (Option.some.inj h1).symm
            exact hfs (this ▸ List.mem_cons_self)
          exact h4 x hx f (LedDict.mem_del.2 ⟨hf, hfe⟩) (fun h => hfs (List.mem_cons_of_mem _ h))

end

section
variable {P D : Type} [LinearOrder D] [Add D] [Mul D]

theorem findNextLed_mem {dist : P → P → D} {maxN : Nat} {w : D} {r l : P} {d : LedDict P} (hd : d.keys.Nodup)
    {x : Nat × P} (h : findNextLed dist maxN w r l d = some x) : x ∈ d :=
  (neighbours_spec dist l _ d hd).1 _ (firstMin_spec h).1

theorem findNextLed_none {dist : P → P → D} {maxN : Nat} {w : D} {r l : P} {d : LedDict P} (hd : d.keys.Nodup)
    (hn : 0 < maxN) : findNextLed dist maxN w r l d = none ↔ d = [] := by
  unfold findNextLed
  rw [firstMin_none]
  have hl := (neighbours_spec dist l (min maxN d.length) d hd).2.2.1
  constructor
  · intro h
    rw [h] at hl
    simp only [List.length_nil] at hl
    exact List.length_eq_zero_iff.1 (by omega)
  · rintro rfl
    simp [neighbours]

/-- The walk splits the dictionary, whatever happens. -/
theorem walk_perm (dist : P → P → D) (maxN : Nat) (w : D) (lastId : Nat) (ref : P) : ∀ fuel id loc (d : LedDict P),
    d.keys.Nodup → id ∈ d.keys →
    let r := walk dist maxN w lastId ref fuel id loc d
    (r.1 ++ r.2.keys).Perm d.keys ∧ r.2.Sublist d := by
  intro fuel
  induction fuel with
  | zero => intro id loc d _ _; simp [walk]
  | succ fuel ih =>
    intro id loc d hd hid
    have hne : d ≠ [] := by rintro rfl; simp [LedDict.keys] at hid
    have hp := LedDict.perm_del hd hid
    have hdd := LedDict.keys_del_nodup hd id
    simp only [walk, List.isEmpty_iff, hne, if_false]
    cases hx : findNextLed dist maxN w ref loc (d.del id) with
    | none => exact ⟨by simpa using hp, LedDict.del_sublist d id⟩
    | some x =>
      have hxm := findNextLed_mem hdd hx
      obtain ⟨nid, nloc⟩ := x
      simp only
      split
      · refine ⟨?_, (LedDict.del_sublist _ _).trans (LedDict.del_sublist _ _)⟩
        have hp2 := LedDict.perm_del hdd (LedDict.mem_keys hxm)
        simpa using (hp2.cons id).trans hp
      · obtain ⟨h1, h2⟩ := ih nid nloc (d.del id) hdd (LedDict.mem_keys hxm)
        refine ⟨?_, h2.trans (LedDict.del_sublist _ _)⟩
        simpa using (h1.cons id).trans hp

/-- Enough fuel is the number of LEDs: more does not change the result, so the loop terminates. -/
theorem walk_fuel (dist : P → P → D) (maxN : Nat) (w : D) (lastId : Nat) (ref : P) : ∀ fuel id loc (d : LedDict P) k,
    d.keys.Nodup → id ∈ d.keys → d.length ≤ fuel →
    walk dist maxN w lastId ref (fuel + k) id loc d = walk dist maxN w lastId ref fuel id loc d := by
  intro fuel
  induction fuel with
  | zero =>
    intro id loc d k _ hid hl
    have : d = [] := List.length_eq_zero_iff.1 (by omega)
    subst this
    simp [LedDict.keys] at hid
  | succ fuel ih =>
    intro id loc d k hd hid hl
    have hdd := LedDict.keys_del_nodup hd id
    have hlen := LedDict.length_del hd hid
    rw [show fuel + 1 + k = (fuel + k) + 1 by omega]
    simp only [walk]
    split
    · rfl
    · cases hx : findNextLed dist maxN w ref loc (d.del id) with
      | none => rfl
      | some x =>
        have hxm := findNextLed_mem hdd hx
        obtain ⟨nid, nloc⟩ := x
        simp only
        split
        · rfl
        · rw [ih nid nloc (d.del id) k hdd (LedDict.mem_keys hxm) (by omega)]

/-- The walk arrives at the last edge LED if that one is available. -/
theorem walk_arrives (dist : P → P → D) (maxN : Nat) (hn : 0 < maxN) (w : D) (lastId : Nat) (ref : P) :
    ∀ fuel id loc (d : LedDict P), d.keys.Nodup → id ∈ d.keys → lastId ∈ d.keys → id ≠ lastId → d.length ≤ fuel →
    ∃ mid, (walk dist maxN w lastId ref fuel id loc d).1 = id :: mid ++ [lastId] := by
  intro fuel
  induction fuel with
  | zero =>
    intro id loc d _ hid _ _ hl
    have : d = [] := List.length_eq_zero_iff.1 (by omega)
    subst this
    simp [LedDict.keys] at hid
  | succ fuel ih =>
    intro id loc d hd hid hlast hne hl
    have hdn : d ≠ [] := by rintro rfl; simp [LedDict.keys] at hid
    have hdd := LedDict.keys_del_nodup hd id
    have hlen := LedDict.length_del hd hid
    have hlast' : lastId ∈ (d.del id).keys := by
      rw [LedDict.keys_del]; simp [hlast, Ne.symm hne]
    simp only [walk, List.isEmpty_iff, hdn, if_false]
    cases hx : findNextLed dist maxN w ref loc (d.del id) with
    | none =>
      rw [findNextLed_none hdd hn] at hx
      rw [hx] at hlast'
      simp [LedDict.keys] at hlast'
    | some x =>
      have hxm := findNextLed_mem hdd hx
      obtain ⟨nid, nloc⟩ := x
      simp only
      split
      · rename_i h
        exact ⟨[], by simp [h]⟩
      · rename_i h
        obtain ⟨mid, hm⟩ := ih nid nloc (d.del id) hdd (LedDict.mem_keys hxm) hlast' h (by omega)
        exact ⟨nid :: mid, by simp [hm]⟩

/-- With equal edge LEDs the walk never arrives and takes all LEDs. -/
theorem walk_swallows (dist : P → P → D) (maxN : Nat) (hn : 0 < maxN) (w : D) (lastId : Nat) (ref : P) :
    ∀ fuel id loc (d : LedDict P), d.keys.Nodup → id ∈ d.keys → lastId ∉ (d.del id).keys → d.length ≤ fuel →
    (walk dist maxN w lastId ref fuel id loc d).2 = [] := by
  intro fuel
  induction fuel with
  | zero =>
    intro id loc d _ hid _ hl
    have : d = [] := List.length_eq_zero_iff.1 (by omega)
    subst this
    simp [LedDict.keys] at hid
  | succ fuel ih =>
    intro id loc d hd hid hlast hl
    have hdn : d ≠ [] := by rintro rfl; simp [LedDict.keys] at hid
    have hdd := LedDict.keys_del_nodup hd id
    have hlen := LedDict.length_del hd hid
    simp only [walk, List.isEmpty_iff, hdn, if_false]
    cases hx : findNextLed dist maxN w ref loc (d.del id) with
    | none =>
      rw [findNextLed_none hdd hn] at hx
      simp [hx]
    | some x =>
      have hxm := findNextLed_mem hdd hx
      obtain ⟨nid, nloc⟩ := x
      simp only
      split
      · rename_i h
        subst h
        exact absurd (LedDict.mem_keys hxm) hlast
      · rename_i h
        refine ih nid nloc (d.del id) hdd (LedDict.mem_keys hxm) (fun hc => hlast ?_) (by omega)
        rw [LedDict.keys_del] at hc
        exact (List.mem_filter.1 hc).1

theorem LedDict.findI_some {d : LedDict P} (hd : d.keys.Nodup) {i : Int} {p : P} :
    d.findI i = some p ↔ 0 ≤ i ∧ (i.toNat, p) ∈ d := by
  unfold LedDict.findI
  split
  · rename_i h; rw [LedDict.find_eq_some hd]; simp [h]
  · rename_i h; simp [h]

theorem matchOne_ok {dist : P → P → D} {maxN : Nat} {w : D} {e : Int × Int} {d : LedDict P} {r : List Nat × LedDict P}
    (hd : d.keys.Nodup) (h : matchOne dist maxN w e d = .ok r) :
    ∃ loc ref, 0 ≤ e.1 ∧ 0 ≤ e.2 ∧ (e.1.toNat, loc) ∈ d ∧ (e.2.toNat, ref) ∈ d ∧
      r = walk dist maxN w e.2.toNat ref d.length e.1.toNat loc d := by
  unfold matchOne at h
  split at h
  · rename_i loc ref h1 h2
    rw [LedDict.findI_some hd] at h1 h2
    exact ⟨loc, ref, h1.1, h2.1, h1.2, h2.2, (Except.ok.inj h).symm⟩
  · cases h

theorem matchAll_perm (dist : P → P → D) (maxN : Nat) (w : D) : ∀ (es : List (Int × Int)) (d : LedDict P)
    (as : List (List Nat)) (d' : LedDict P), d.keys.Nodup → matchAll dist maxN w es d = .ok (as, d') →
    (as.flatten ++ d'.keys).Perm d.keys ∧ as.length = es.length ∧ d'.Sublist d := by
  intro es
  induction es with
  | nil =>
    intro d as d' _ h
    simp only [matchAll, Except.ok.injEq, Prod.mk.injEq] at h
    obtain ⟨rfl, rfl⟩ := h
    simp
  | cons e es ih =>
    intro d as d' hd h
    simp only [matchAll] at h
    split at h
    · cases h
    · rename_i a d1 h1
      split at h
      · cases h
      · rename_i as' d2 h2
        simp only [Except.ok.injEq, Prod.mk.injEq] at h
        obtain ⟨rfl, rfl⟩ := h
        obtain ⟨loc, ref, _, _, hloc, _, hr⟩ := matchOne_ok hd h1
        obtain ⟨hp, hs⟩ := walk_perm dist maxN w e.2.toNat ref d.length e.1.toNat loc d hd (LedDict.mem_keys hloc)
        rw [← hr] at hp hs
        have hd1 : LedDict.keys d1 |>.Nodup := (hs.map _).nodup hd
        obtain ⟨q1, q2, q3⟩ := ih d1 as' d2 hd1 h2
        refine ⟨?_, by simp [q2], q3.trans hs⟩
        simp only [List.flatten_cons, List.append_assoc]
        exact (List.Perm.append_left a q1).trans hp

end

end Ledsa
