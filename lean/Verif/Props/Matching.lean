import Verif.Props.Step2
import Verif.Model.Metric
import Mathlib.Algebra.Order.Field.Basic
import Mathlib.Tactic.Linarith
import Mathlib.Tactic.NormNum
import Mathlib.Tactic.Ring
/-
Property C133: LED arrays that are nearly straight are matched completely and in order.
-/
namespace Ledsa

section
variable {P D : Type} [LinearOrder D] [Add D] [Mul D]

/-- An LED array as a list of LEDs with positions `pos`, among all LEDs. From every LED `a` the next one `b` is nearer than any LED `e` that was
not yet passed, and the weighted way over `b` to the last LED `r` is shorter than that over `e`. -/
def BestNext {α : Type} (dist : P → P → D) (w : D) (pos : α → P) (all : α → Prop) (chain : List α) : Prop :=
  ∀ pre a b post r, chain = pre ++ a :: b :: post → (b :: post).getLast? = some r →
    ∀ e, all e → e ∉ pre ++ [a, b] → dist (pos a) (pos b) < dist (pos a) (pos e) ∧
      w * dist (pos r) (pos b) + dist (pos a) (pos b) < w * dist (pos r) (pos e) + dist (pos a) (pos e)

omit [Add D] [Mul D] in
theorem firstMin_unique {α : Type} {key : α → D} {l : List α} {x : α} (hx : x ∈ l) (h : ∀ y ∈ l, y ≠ x → key x < key y) :
    firstMin key l = some x := by
  cases e : firstMin key l with
  | none => rw [firstMin_none] at e; subst e; cases hx
  | some m =>
    obtain ⟨h1, h2⟩ := firstMin_spec e
    by_contra hc
    have hne : m ≠ x := fun hm => hc (by rw [hm])
    exact absurd (h2 x hx) (not_le.2 (h m h1 hne))

/-- The next LED of an array. -/
theorem findNextLed_next (dist : P → P → D) (maxN : ℕ) (hn : 0 < maxN) (w : D)
    (ref loc : P) (d : LedDict P) (hd : d.keys.Nodup) (b : ℕ × P) (hb : b ∈ d)
    (h : ∀ e ∈ d, e.1 ≠ b.1 → dist loc b.2 < dist loc e.2 ∧ w * dist ref b.2 + dist loc b.2 < w * dist ref e.2 + dist loc e.2) :
    findNextLed dist maxN w ref loc d = some b := by
  have hid : ∀ e ∈ d, e ≠ b → e.1 ≠ b.1 := fun e he hne h1 => hne (List.inj_on_of_nodup_map hd he hb h1)
  have hlen : 0 < d.length := List.length_pos_of_mem hb
  have hbn : b ∈ neighbours dist loc (min maxN d.length) d := by
    obtain ⟨k, hk⟩ : ∃ k, min maxN d.length = k + 1 := ⟨min maxN d.length - 1, by omega⟩
    rw [hk]
    unfold neighbours
    rw [firstMin_unique hb fun e he hne => (h e he (hid e he hne)).1]
    exact List.mem_cons_self
  obtain ⟨s1, _⟩ := neighbours_spec dist loc (min maxN d.length) d hd
  unfold findNextLed
  exact firstMin_unique hbn fun e he hne => (h e (s1 e he) (hid e (s1 e he) hne)).2

theorem walk_next (dist : P → P → D) (maxN : ℕ) (hn : 0 < maxN) (w : D)
    (table chain : List (ℕ × P)) (hf : BestNext dist w (·.2) (· ∈ table) chain) (hc : (chain.map (·.1)).Nodup) :
    ∀ (post pre : List (ℕ × P)) (a b r : ℕ × P) (fuel : ℕ) (d : LedDict P), chain = pre ++ a :: b :: post → (b :: post).getLast? = some r →
      d.keys.Nodup → (∀ e ∈ d, e ∈ table ∧ e.1 ∉ pre.map (·.1)) → (∀ e ∈ a :: b :: post, e ∈ d) → post.length + 1 ≤ fuel →
      walk dist maxN w r.1 r.2 fuel a.1 a.2 d =
        ((a :: b :: post).map (·.1), d.filter fun e => e.1 ∉ (a :: b :: post).map (·.1)) := by
  intro post
  induction post with
  | nil =>
    intro pre a b r fuel d hch hr hd hin hmem hfuel
    obtain ⟨fuel, rfl⟩ : ∃ k, fuel = k + 1 := ⟨fuel - 1, by omega⟩
    simp only [List.getLast?_singleton, Option.some.injEq] at hr
    subst hr
    have hne : a.1 ≠ b.1 := by
      rw [hch] at hc
      simp only [List.map_append, List.map_cons, List.map_nil, List.nodup_append, List.nodup_cons, List.mem_cons] at hc
      exact fun h => hc.2.1.1 (Or.inl h)
    have hnext := findNextLed_next dist maxN hn w b.2 a.2 (d.del a.1) (LedDict.keys_del_nodup hd _) b
      (LedDict.mem_del.2 ⟨hmem b (by simp), hne.symm⟩) (by
        intro e he heb
        obtain ⟨he1, he2⟩ := LedDict.mem_del.1 he
        refine hf pre a b [] b hch rfl e (hin e he1).1 ?_
        rw [List.mem_append, not_or]
        refine ⟨fun h => (hin e he1).2 (List.mem_map_of_mem h), ?_⟩
        intro h
        rcases List.mem_cons.1 h with rfl | h
        · exact he2 rfl
        · exact heb (by rw [List.mem_singleton.1 h]))
    have hemp : d.isEmpty = false := by
      cases d with
      | nil => cases hmem a (by simp)
      | cons => rfl
    unfold walk
    rw [hemp]
    simp only [Bool.false_eq_true, if_false, hnext, if_true]
    refine Prod.ext rfl ?_
    simp only [LedDict.del, List.filter_filter]
    refine List.filter_congr fun e _ => ?_
    simp only [List.map_cons, List.map_nil, List.mem_cons, List.not_mem_nil, or_false, not_or, ne_eq, decide_not, Bool.decide_and]
    rw [Bool.and_comm]
  | cons c post ih =>
    intro pre a b r fuel d hch hr hd hin hmem hfuel
    obtain ⟨fuel, rfl⟩ : ∃ k, fuel = k + 1 := ⟨fuel - 1, by omega⟩
    have hr' : (c :: post).getLast? = some r := by rw [List.getLast?_cons_cons] at hr; exact hr
    have hnd : (([a, b].map (·.1)) ++ ((c :: post).map (·.1))).Nodup := by
      rw [hch, List.map_append] at hc
      exact (List.nodup_append.1 hc).2.1
    have hne : a.1 ≠ b.1 := by
      simp only [List.map_cons, List.map_nil, List.cons_append, List.nil_append, List.nodup_cons, List.mem_cons] at hnd
      exact fun h => hnd.1 (Or.inl h)
    have hbr : b.1 ≠ r.1 := by
      intro h
      have hrm : r.1 ∈ (c :: post).map (·.1) := List.mem_map_of_mem (List.mem_of_getLast? hr')
      exact (List.nodup_append.1 hnd).2.2 b.1 (by simp) r.1 hrm h
    have hnext := findNextLed_next dist maxN hn w r.2 a.2 (d.del a.1) (LedDict.keys_del_nodup hd _) b
      (LedDict.mem_del.2 ⟨hmem b (by simp), hne.symm⟩) (by
        intro e he heb
        obtain ⟨he1, he2⟩ := LedDict.mem_del.1 he
        refine hf pre a b (c :: post) r hch hr e (hin e he1).1 ?_
        rw [List.mem_append, not_or]
        refine ⟨fun h => (hin e he1).2 (List.mem_map_of_mem h), ?_⟩
        intro h
        rcases List.mem_cons.1 h with rfl | h
        · exact he2 rfl
        · exact heb (by rw [List.mem_singleton.1 h]))
    have hemp : d.isEmpty = false := by
      cases d with
      | nil => cases hmem a (by simp)
      | cons => rfl
    have ha : ∀ e ∈ b :: c :: post, e.1 ≠ a.1 := by
      intro e he h
      have hm : e.1 ∈ (b :: c :: post).map (·.1) := List.mem_map_of_mem he
      rw [h] at hm
      simp only [List.map_cons, List.map_nil, List.cons_append, List.nil_append] at hnd
      exact (List.nodup_cons.1 hnd).1 hm
    have hrec := ih (pre ++ [a]) b c r fuel (d.del a.1) (by rw [hch]; simp) hr' (LedDict.keys_del_nodup hd _) (by
        intro e he
        obtain ⟨he1, he2⟩ := LedDict.mem_del.1 he
        refine ⟨(hin e he1).1, ?_⟩
        rw [List.map_append, List.mem_append, not_or]
        exact ⟨(hin e he1).2, by simpa using he2⟩) (by
        intro e he
        exact LedDict.mem_del.2 ⟨hmem e (List.mem_cons_of_mem _ he), ha e he⟩) (by
        simp only [List.length_cons] at hfuel; omega)
    unfold walk
    rw [hemp]
    simp only [Bool.false_eq_true, if_false, hnext, if_neg hbr, hrec]
    refine Prod.ext rfl ?_
    simp only [LedDict.del, List.filter_filter]
    refine List.filter_congr fun e _ => ?_
    simp only [List.map_cons, List.mem_cons, not_or, ne_eq, decide_not, Bool.decide_and]
    rw [Bool.and_comm]

/-- The edge LEDs of an array, as the user gives them. -/
def edgesOf (chain : List (ℕ × P)) : ℤ × ℤ := (((chain.head?).map (·.1)).getD 0, ((chain.getLast?).map (·.1)).getD 0)

/-- LED arrays with positions, in a table of LEDs: at least two LEDs each, no LED twice. -/
structure ArraysIn (table : List (ℕ × P)) (chains : List (List (ℕ × P))) : Prop where
  two : ∀ c ∈ chains, 2 ≤ c.length
  nodup : ((chains.flatten).map (·.1)).Nodup
  mem : ∀ e ∈ chains.flatten, e ∈ table

theorem matchOne_next (dist : P → P → D) (maxN : ℕ) (hn : 0 < maxN) (w : D)
    (table chain : List (ℕ × P)) (hf : BestNext dist w (·.2) (· ∈ table) chain) (hc : (chain.map (·.1)).Nodup) (h2 : 2 ≤ chain.length)
    (d : LedDict P) (hd : d.keys.Nodup) (hin : ∀ e ∈ d, e ∈ table) (hmem : ∀ e ∈ chain, e ∈ d) :
    matchOne dist maxN w (edgesOf chain) d = .ok (chain.map (·.1), d.filter fun e => e.1 ∉ chain.map (·.1)) := by
  match chain, h2 with
  | a :: b :: post, _ =>
    obtain ⟨r, hr⟩ : ∃ r, (b :: post).getLast? = some r := ⟨_, List.getLast?_eq_some_getLast (by simp)⟩
    have hrd : r ∈ d := hmem r (List.mem_cons_of_mem _ (List.mem_of_getLast? hr))
    have he : edgesOf (a :: b :: post) = ((a.1 : ℤ), (r.1 : ℤ)) := by
      unfold edgesOf
      rw [List.getLast?_cons_cons, hr]
      rfl
    have hlen : (a :: b :: post).length ≤ d.length := by
      have hsub : ((a :: b :: post).map (·.1)) ⊆ d.keys := by
        intro x hx
        obtain ⟨e, he, rfl⟩ := List.mem_map.1 hx
        exact LedDict.mem_keys (hmem e he)
      have := (hc.subperm hsub).length_le
      simpa [LedDict.keys] using this
    unfold matchOne
    rw [he]
    simp only [LedDict.findI, Nat.cast_nonneg, if_true, Int.toNat_natCast]
    rw [(LedDict.find_eq_some hd).2 (show (a.1, a.2) ∈ d from hmem a (by simp)), (LedDict.find_eq_some hd).2 (show (r.1, r.2) ∈ d from hrd)]
    simp only
    rw [walk_next dist maxN hn w table (a :: b :: post) hf hc post [] a b r d.length d rfl hr hd
      (fun e he => ⟨hin e he, by simp⟩) hmem (by simp only [List.length_cons] at hlen; omega)]

theorem matchAll_next (dist : P → P → D) (maxN : ℕ) (hn : 0 < maxN) (w : D)
    (table : List (ℕ × P)) : ∀ (chains : List (List (ℕ × P))) (d : LedDict P), (∀ c ∈ chains, BestNext dist w (·.2) (· ∈ table) c) →
      (∀ c ∈ chains, 2 ≤ c.length) → ((chains.flatten).map (·.1)).Nodup → d.keys.Nodup → (∀ e ∈ d, e ∈ table) → (∀ e ∈ chains.flatten, e ∈ d) →
      matchAll dist maxN w (chains.map edgesOf) d =
        .ok (chains.map fun c => c.map (·.1), d.filter fun e => e.1 ∉ (chains.flatten).map (·.1))
  | [], d, _, _, _, _, _, _ => by simp [matchAll]
  | c :: chains, d, hf, h2, hnd, hd, hin, hmem => by
    rw [List.flatten_cons, List.map_append] at hnd
    obtain ⟨n1, n2, n3⟩ := List.nodup_append.1 hnd
    have h1 := matchOne_next dist maxN hn w table c (hf c (by simp)) n1 (h2 c (by simp)) d hd hin
      (fun e he => hmem e (by simp [he]))
    have hrec := matchAll_next dist maxN hn w table chains (d.filter fun e => e.1 ∉ c.map (·.1))
      (fun c' hc' => hf c' (List.mem_cons_of_mem _ hc')) (fun c' hc' => h2 c' (List.mem_cons_of_mem _ hc')) n2
      (hd.sublist (List.Sublist.map _ List.filter_sublist))
      (fun e he => hin e (List.mem_of_mem_filter he)) (by
        intro e he
        rw [List.mem_filter]
        refine ⟨hmem e (by rw [List.flatten_cons, List.mem_append]; exact Or.inr he), ?_⟩
        simp only [decide_eq_true_eq]
        exact fun hc => n3 e.1 hc e.1 (List.mem_map_of_mem he) rfl)
    rw [List.map_cons]
    unfold matchAll
    rw [h1]
    simp only
    rw [hrec]
    simp only [List.map_cons, List.flatten_cons, List.map_append, List.filter_filter, Except.ok.injEq, Prod.mk.injEq, true_and]
    refine List.filter_congr fun e _ => ?_
    simp only [List.mem_append, not_or, Bool.decide_and]
    rw [Bool.and_comm]

/-- **C133** for any distances and any arithmetic: LED arrays in which the next LED is always the best one are matched completely, in order, and without
other LEDs, for any number of considered neighbours; ignored LEDs are left out, and exactly the LEDs of no array are reported as not matched. -/
theorem C133_next (dist : P → P → D) (maxN : ℕ) (hn : 0 < maxN) (w : D)
    (table : List (ℕ × P)) (hids : (table.map (·.1)).Nodup) (chains : List (List (ℕ × P))) (ha : ArraysIn table chains)
    (hf : ∀ c ∈ chains, BestNext dist w (·.2) (· ∈ table) c) (ignore : Str) :
    matchLeds dist maxN w (chains.map edgesOf) ignore table =
      .ok (chains.map fun c => (c.map (·.1)).filter fun (x : ℕ) => (x : ℤ) ∉ ignoredLeds ignore,
        (table.map (·.1)).filter fun x => x ∉ (chains.flatten).map (·.1)) := by
  have h := matchAll_next dist maxN hn w table chains table hf ha.two ha.nodup hids (fun e he => he) ha.mem
  have hrest : (table.filter fun e => e.1 ∉ (chains.flatten).map (·.1)).map (·.1) =
      (table.map (·.1)).filter fun x => x ∉ (chains.flatten).map (·.1) := by
    rw [List.filter_map]
    rfl
  have hnone : matchLeds dist maxN w (chains.map edgesOf) "None".toList table =
      .ok (chains.map fun c => c.map (·.1), (table.map (·.1)).filter fun x => x ∉ (chains.flatten).map (·.1)) := by
    unfold matchLeds
    rw [h]
    simp only [Except.ok.injEq, Prod.mk.injEq]
    refine ⟨by simp [removeIgnored, ignoredLeds], hrest⟩
  rw [C17_ignored_removed dist maxN w _ ignore table hids _ _ hnone, List.map_map]
  rfl

end

section
variable {P D : Type} [Field D] [LinearOrder D] [IsStrictOrderedRing D]

/-- What is needed of the distance: the triangle inequality. -/
def Triangle (dist : P → P → D) : Prop := ∀ r a e, dist r a ≤ dist r e + dist a e

/-- How much longer the way from `a` to `r` is over `b`. -/
def detour (dist : P → P → D) (r a b : P) : D := dist a b + dist r b - dist r a

/-- An LED array as a list of LEDs with positions `pos`, among all LEDs. From every LED `a` the next one `b` is nearer than any LED that was
not yet passed, by a distance that outweighs the detour over `b` on the way to the last LED. -/
def FollowsLine {α : Type} (dist : P → P → D) (w : D) (pos : α → P) (all : α → Prop) (chain : List α) : Prop :=
  ∀ pre a b post r, chain = pre ++ a :: b :: post → (b :: post).getLast? = some r →
    ∀ e, all e → e ∉ pre ++ [a, b] →
      w * detour dist (pos r) (pos a) (pos b) < (1 - w) * (dist (pos a) (pos e) - dist (pos a) (pos b))

/-- The weighted ways compared: what the triangle inequality leaves. -/
theorem ways_apart (dist : P → P → D) (ht : Triangle dist) (w : D) (hw0 : 0 ≤ w) (r a b e : P) :
    (1 - w) * (dist a e - dist a b) - w * detour dist r a b ≤ w * dist r e + dist a e - (w * dist r b + dist a b) := by
  have h2 := mul_le_mul_of_nonneg_left (ht r a e) hw0
  unfold detour
  have e1 : w * (dist a b + dist r b - dist r a) = w * dist a b + w * dist r b - w * dist r a := by ring
  have e2 : (1 - w) * (dist a e - dist a b) = dist a e - dist a b - w * dist a e + w * dist a b := by ring
  have e3 : w * (dist r e + dist a e) = w * dist r e + w * dist a e := by ring
  rw [e3] at h2
  rw [e1, e2]
  linarith

theorem followsLine_next {α : Type} (dist : P → P → D) (ht : Triangle dist) (w : D) (hw0 : 0 ≤ w) (hw1 : w < 1) (pos : α → P) (all : α → Prop)
    (chain : List α) (h : FollowsLine dist w pos all chain) : BestNext dist w pos all chain := by
  intro pre a b post r hc hr e he hne
  have h1 := h pre a b post r hc hr e he hne
  have hdet : 0 ≤ detour dist (pos r) (pos a) (pos b) := by
    unfold detour
    linarith [ht (pos r) (pos a) (pos b)]
  constructor
  · have h2 : 0 < (1 - w) * (dist (pos a) (pos e) - dist (pos a) (pos b)) := lt_of_le_of_lt (mul_nonneg hw0 hdet) h1
    have h3 := (mul_pos_iff_of_pos_left (by linarith : (0 : D) < 1 - w)).1 h2
    linarith
  · linarith [ways_apart dist ht w hw0 (pos r) (pos a) (pos b) (pos e)]

/-- **C133.** LED arrays that follow their lines are matched completely, in order, and without other LEDs, for any number of considered
neighbours and any weight below one; ignored LEDs are left out, and exactly the LEDs of no array are reported as not matched. -/
theorem C133_followed (dist : P → P → D) (ht : Triangle dist) (maxN : ℕ) (hn : 0 < maxN) (w : D) (hw0 : 0 ≤ w) (hw1 : w < 1)
    (table : List (ℕ × P)) (hids : (table.map (·.1)).Nodup) (chains : List (List (ℕ × P))) (ha : ArraysIn table chains)
    (hf : ∀ c ∈ chains, FollowsLine dist w (·.2) (· ∈ table) c) (ignore : Str) :
    matchLeds dist maxN w (chains.map edgesOf) ignore table =
      .ok (chains.map fun c => (c.map (·.1)).filter fun (x : ℕ) => (x : ℤ) ∉ ignoredLeds ignore,
        (table.map (·.1)).filter fun x => x ∉ (chains.flatten).map (·.1)) :=
  C133_next dist maxN hn w table hids chains ha (fun c hc => followsLine_next dist ht w hw0 hw1 _ _ c (hf c hc)) ignore

end

/-! ### Arrays that are nearly straight in the photo -/

/-- Coordinate along the direction `u`. -/
noncomputable def along (u : ℝ × ℝ) (p : ℤ × ℤ) : ℝ := u.1 * p.1 + u.2 * p.2

/-- Coordinate across the direction `u`. -/
noncomputable def across (u : ℝ × ℝ) (p : ℤ × ℤ) : ℝ := u.1 * p.2 - u.2 * p.1

/-- An array that is nearly straight: along a direction `u`, consecutive LEDs are at least `g` pixels apart; across it, no LED is more than `δ`
from a line; and LEDs of other arrays are farther from each LED than the next LED of the array, by `g` pixels. -/
structure NearlyStraight {α : Type} (pos : α → ℤ × ℤ) (all : α → Prop) (chain : List α) (u : ℝ × ℝ) (line δ g : ℝ) : Prop where
  unit : u.1 ^ 2 + u.2 ^ 2 = 1
  gap_pos : 0 < g
  near : ∀ a ∈ chain, |across u (pos a) - line| ≤ δ
  gaps : ∀ pre a b post, chain = pre ++ a :: b :: post → along u (pos a) + g ≤ along u (pos b)
  others : ∀ pre a b post, chain = pre ++ a :: b :: post → ∀ e, all e → e ∉ chain →
    along u (pos b) - along u (pos a) + g ≤ pixelDist (pos a) (pos e)

theorem pixelDist_rot {u : ℝ × ℝ} (hu : u.1 ^ 2 + u.2 ^ 2 = 1) (p q : ℤ × ℤ) :
    pixelDist p q = Real.sqrt ((along u p - along u q) ^ 2 + (across u p - across u q) ^ 2) := by
  unfold pixelDist along across
  congr 1
  have : (u.1 * (p.1 : ℝ) + u.2 * p.2 - (u.1 * q.1 + u.2 * q.2)) ^ 2 + (u.1 * (p.2 : ℝ) - u.2 * p.1 - (u.1 * q.2 - u.2 * q.1)) ^ 2 =
      (u.1 ^ 2 + u.2 ^ 2) * (((p.1 : ℝ) - q.1) ^ 2 + ((p.2 : ℝ) - q.2) ^ 2) := by ring
  rw [this, hu, one_mul]

theorem pixelDist_ge {u : ℝ × ℝ} (hu : u.1 ^ 2 + u.2 ^ 2 = 1) (p q : ℤ × ℤ) : |along u p - along u q| ≤ pixelDist p q := by
  rw [pixelDist_rot hu]
  apply Real.abs_le_sqrt
  nlinarith [sq_nonneg (across u p - across u q)]

theorem pixelDist_le {u : ℝ × ℝ} (hu : u.1 ^ 2 + u.2 ^ 2 = 1) (p q : ℤ × ℤ) (g δ : ℝ) (hg : 0 < g) (hx : g ≤ along u q - along u p)
    (hy : |across u p - across u q| ≤ 2 * δ) : pixelDist p q ≤ along u q - along u p + 2 * δ ^ 2 / g := by
  rw [pixelDist_rot hu]
  set x := along u q - along u p with hxd
  have e1 : along u p - along u q = -x := by rw [hxd]; ring
  have hx0 : 0 < x := lt_of_lt_of_le hg hx
  have hy2 : (across u p - across u q) ^ 2 ≤ 4 * δ ^ 2 := by
    have := sq_le_sq' (by linarith [abs_le.1 hy |>.1]) (abs_le.1 hy).2
    linarith [this, show (2 * δ) ^ 2 = 4 * δ ^ 2 by ring]
  have hq : 0 ≤ 2 * δ ^ 2 / g := div_nonneg (by positivity) hg.le
  apply Real.sqrt_le_iff.2
  refine ⟨by linarith, ?_⟩
  rw [e1]
  have h1 : 4 * δ ^ 2 ≤ 2 * x * (2 * δ ^ 2 / g) := by
    have : g * (2 * δ ^ 2 / g) = 2 * δ ^ 2 := by field_simp
    nlinarith [mul_le_mul_of_nonneg_right hx hq]
  nlinarith [sq_nonneg (2 * δ ^ 2 / g)]

theorem pixelDist_triangle : Triangle pixelDist := by
  intro r a e
  have key : ∀ p q : ℤ × ℤ, pixelDist p q = ‖(⟨(p.1 : ℝ), (p.2 : ℝ)⟩ : ℂ) - ⟨(q.1 : ℝ), (q.2 : ℝ)⟩‖ := by
    intro p q
    rw [Complex.norm_def, Complex.normSq_apply]
    unfold pixelDist
    congr 1
    simp only [Complex.sub_re, Complex.sub_im]
    ring
  rw [key, key, key]
  have := norm_sub_le_norm_sub_add_norm_sub (⟨(r.1 : ℝ), (r.2 : ℝ)⟩ : ℂ) ⟨(e.1 : ℝ), (e.2 : ℝ)⟩ ⟨(a.1 : ℝ), (a.2 : ℝ)⟩
  rw [norm_sub_rev (⟨(e.1 : ℝ), (e.2 : ℝ)⟩ : ℂ) ⟨(a.1 : ℝ), (a.2 : ℝ)⟩] at this
  exact this

theorem pixelDist_self (p : ℤ × ℤ) : pixelDist p p = 0 := by
  unfold pixelDist
  simp

theorem pixelDist_comm (p q : ℤ × ℤ) : pixelDist p q = pixelDist q p := by
  unfold pixelDist
  congr 1
  ring

/-- Along a chain with gaps of at least `g`, later LEDs are farther. -/
theorem chain_along {α : Type} (f : α → ℝ) (g : ℝ) (hg : 0 < g) : ∀ (post : List α) (b : α),
    (∀ pre x y rest, b :: post = pre ++ x :: y :: rest → f x + g ≤ f y) → ∀ e ∈ post, f b + g ≤ f e
  | [], _, _, e, he => by cases he
  | c :: post, b, h, e, he => by
    have h1 := h [] b c post rfl
    rcases List.mem_cons.1 he with rfl | he
    · exact h1
    · have := chain_along f g hg post c (fun pre x y rest hx => h (b :: pre) x y rest (by rw [hx]; rfl)) e he
      linarith

/-- Every other LED is farther than the next one by nearly the gap, and the next one is nearly on the way. -/
theorem nearlyStraight_margin {α : Type} (pos : α → ℤ × ℤ) (all : α → Prop) (chain : List α) (u : ℝ × ℝ) (line δ g : ℝ)
    (h : NearlyStraight pos all chain u line δ g) (pre : List α) (a b : α) (post : List α) (r : α) (hc : chain = pre ++ a :: b :: post)
    (hr : (b :: post).getLast? = some r) (e : α) (he : all e) (hne : e ∉ pre ++ [a, b]) :
    detour pixelDist (pos r) (pos a) (pos b) ≤ 2 * (2 * δ ^ 2 / g) ∧
      g - 2 * δ ^ 2 / g ≤ pixelDist (pos a) (pos e) - pixelDist (pos a) (pos b) := by
  have hg := h.gap_pos
  have hab : along u (pos a) + g ≤ along u (pos b) := h.gaps pre a b post hc
  have hafter : ∀ e ∈ post, along u (pos b) + g ≤ along u (pos e) := by
    refine chain_along (fun x => along u (pos x)) g hg post b ?_
    intro pre' x y rest hx
    refine h.gaps (pre ++ a :: pre') x y rest ?_
    rw [hc, hx]
    simp
  have hmem : ∀ x, x ∈ a :: b :: post → x ∈ chain := by
    intro x hx
    rw [hc]
    exact List.mem_append_right _ hx
  have hacross : ∀ x y, x ∈ a :: b :: post → y ∈ a :: b :: post → |across u (pos x) - across u (pos y)| ≤ 2 * δ := by
    intro x y hx hy
    have h1 := abs_le.1 (h.near x (hmem x hx))
    have h2 := abs_le.1 (h.near y (hmem y hy))
    rw [abs_le]
    constructor <;> linarith [h1.1, h1.2, h2.1, h2.2]
  have hdab : pixelDist (pos a) (pos b) ≤ along u (pos b) - along u (pos a) + 2 * δ ^ 2 / g :=
    pixelDist_le h.unit _ _ g δ hg (by linarith) (hacross a b (by simp) (by simp))
  have hq : 0 ≤ 2 * δ ^ 2 / g := div_nonneg (by positivity) hg.le
  have hdet : detour pixelDist (pos r) (pos a) (pos b) ≤ 2 * (2 * δ ^ 2 / g) := by
    unfold detour
    have hrm := List.mem_of_getLast? hr
    rcases List.mem_cons.1 hrm with rfl | hrp
    · rw [pixelDist_self, pixelDist_comm (pos r) (pos a)]
      linarith
    · have h1 := hafter r hrp
      have h2 : pixelDist (pos b) (pos r) ≤ along u (pos r) - along u (pos b) + 2 * δ ^ 2 / g :=
        pixelDist_le h.unit _ _ g δ hg (by linarith) (hacross b r (by simp) (by simp [hrp]))
      have h3 := (le_abs_self _).trans (pixelDist_ge h.unit (pos r) (pos a))
      rw [pixelDist_comm (pos r) (pos b)]
      linarith
  have hde : along u (pos b) - along u (pos a) + g ≤ pixelDist (pos a) (pos e) := by
    by_cases hec : e ∈ chain
    · have hep : e ∈ post := by
        rw [hc, List.mem_append] at hec
        rw [List.mem_append, not_or] at hne
        rcases hec with hec | hec
        · exact absurd hec hne.1
        · simp only [List.mem_cons, List.not_mem_nil, or_false, not_or] at hec hne
          rcases hec with rfl | rfl | hec
          · exact absurd rfl hne.2.1
          · exact absurd rfl hne.2.2
          · exact hec
      have h1 := hafter e hep
      have h3 := (le_abs_self _).trans (pixelDist_ge h.unit (pos e) (pos a))
      rw [pixelDist_comm (pos a) (pos e)]
      linarith
    · exact h.others pre a b post hc e he hec
  exact ⟨hdet, by linarith⟩

theorem nearlyStraight_follows {α : Type} (pos : α → ℤ × ℤ) (all : α → Prop) (chain : List α) (u : ℝ × ℝ) (line δ g w : ℝ) (hw0 : 0 ≤ w) (hw1 : w < 1)
    (h : NearlyStraight pos all chain u line δ g) (hflat : 2 * (1 + w) * δ ^ 2 < (1 - w) * g ^ 2) : FollowsLine pixelDist w pos all chain := by
  intro pre a b post r hc hr e he hne
  have hg := h.gap_pos
  obtain ⟨hdet, h1⟩ := nearlyStraight_margin pos all chain u line δ g h pre a b post r hc hr e he hne
  refine lt_of_le_of_lt (mul_le_mul_of_nonneg_left hdet hw0) (lt_of_lt_of_le ?_ (mul_le_mul_of_nonneg_left h1 (by linarith)))
  have hgg : g * (2 * δ ^ 2 / g) = 2 * δ ^ 2 := by field_simp
  have h2 : 0 < g * ((1 - w) * (g - 2 * δ ^ 2 / g) - w * (2 * (2 * δ ^ 2 / g))) := by
    have : g * ((1 - w) * (g - 2 * δ ^ 2 / g) - w * (2 * (2 * δ ^ 2 / g))) = (1 - w) * (g ^ 2 - g * (2 * δ ^ 2 / g)) - 2 * w * (g * (2 * δ ^ 2 / g)) := by ring
    rw [this, hgg]
    nlinarith
  have := (mul_pos_iff_of_pos_left hg).1 h2
  linarith

/-- **C133** for the distances and the weight of the program: it is enough that no LED of an array is farther from a straight line than an eighteenth
of the smallest gap, and that LEDs of other arrays are farther than the next LED of the array by this gap. -/
theorem C133_nearly_straight (table : LedTable) (hids : (table.map (·.1)).Nodup) (chains : List (List (ℕ × ℤ × ℤ))) (ha : ArraysIn table chains)
    (hs : ∀ c ∈ chains, ∃ u line δ g, NearlyStraight (·.2) (· ∈ table) c u line δ g ∧ 0 ≤ δ ∧ 18 * δ ≤ g) (ignore : Str) :
    matchLeds defaultMetric.dist defaultMetric.neighbours defaultMetric.weight (chains.map edgesOf) ignore table =
      .ok (chains.map fun c => (c.map (·.1)).filter fun (x : ℕ) => (x : ℤ) ∉ ignoredLeds ignore,
        (table.map (·.1)).filter fun x => x ∉ (chains.flatten).map (·.1)) := by
  unfold defaultMetric
  refine C133_followed pixelDist pixelDist_triangle 5 (by norm_num) _ (by norm_num) (by norm_num) table hids chains ha ?_ ignore
  intro c hc
  obtain ⟨u, line, δ, g, h1, h2, h3⟩ := hs c hc
  refine nearlyStraight_follows _ _ c u line δ g _ (by norm_num) (by norm_num) h1 ?_
  have hg := h1.gap_pos
  nlinarith [mul_self_le_mul_self (by linarith : (0 : ℝ) ≤ 18 * δ) h3, mul_pos hg hg]

/-! Two columns of LEDs that are not quite straight. -/

/-- Five LEDs, two columns. -/
def benchTable : LedTable := [(0, 0, 0), (1, 0, 200), (2, 40, 1), (3, 39, 201), (4, 80, -1)]

/-- The columns. -/
def benchChains : List (List (ℕ × ℤ × ℤ)) := [[(0, 0, 0), (2, 40, 1), (4, 80, -1)], [(1, 0, 200), (3, 39, 201)]]

theorem pixelDist_cols (p q : ℤ × ℤ) : |(p.2 : ℝ) - q.2| ≤ pixelDist p q := by
  unfold pixelDist
  apply Real.abs_le_sqrt
  nlinarith [sq_nonneg ((p.1 : ℝ) - q.1)]

theorem bench_straight : ∀ c ∈ benchChains, ∃ u line δ g, NearlyStraight (fun e : ℕ × ℤ × ℤ => e.2) (· ∈ benchTable) c u line δ g ∧ 0 ≤ δ ∧ 18 * δ ≤ g := by
  have hfar : ∀ (a e : ℕ × ℤ × ℤ) (m : ℝ), 100 ≤ |a.2.2 - e.2.2| → m ≤ 100 → m ≤ pixelDist a.2 e.2 := by
    intro a e m h hm
    refine le_trans ?_ (pixelDist_cols a.2 e.2)
    have : ((100 : ℤ) : ℝ) ≤ ((|a.2.2 - e.2.2| : ℤ) : ℝ) := Int.cast_le.2 h
    push_cast at this
    linarith
  intro c hc
  unfold benchChains at hc
  rcases List.mem_cons.1 hc with rfl | hc
  · refine ⟨(1, 0), 0, 1, 40, ⟨by norm_num, by norm_num, ?_, ?_, ?_⟩, by norm_num, by norm_num⟩
    · intro a ha
      unfold across
      simp only [List.mem_cons, List.not_mem_nil, or_false] at ha
      rcases ha with rfl | rfl | rfl <;> norm_num
    · intro pre a b post h
      unfold along
      match pre, h with
      | [], h => simp only [List.nil_append, List.cons.injEq] at h; obtain ⟨rfl, rfl, _⟩ := h; norm_num
      | [_], h => simp only [List.cons_append, List.nil_append, List.cons.injEq] at h; obtain ⟨_, rfl, rfl, _⟩ := h; norm_num
      | [_, _], h => simp at h
      | _ :: _ :: _ :: _, h => simp at h
    · intro pre a b post h e he hne
      have he' : e = (1, 0, 200) ∨ e = (3, 39, 201) := by
        unfold benchTable at he
        simp only [List.mem_cons, List.not_mem_nil, or_false] at he hne
        tauto
      unfold along
      match pre, h with
      | [], h => simp only [List.nil_append, List.cons.injEq] at h; obtain ⟨rfl, rfl, _⟩ := h; rcases he' with rfl | rfl <;> exact hfar _ _ _ (by decide) (by norm_num)
      | [_], h => simp only [List.cons_append, List.nil_append, List.cons.injEq] at h; obtain ⟨_, rfl, rfl, _⟩ := h; rcases he' with rfl | rfl <;> exact hfar _ _ _ (by decide) (by norm_num)
      | [_, _], h => simp at h
      | _ :: _ :: _ :: _, h => simp at h
  · rw [List.mem_singleton] at hc
    subst hc
    refine ⟨(1, 0), 200, 1, 39, ⟨by norm_num, by norm_num, ?_, ?_, ?_⟩, by norm_num, by norm_num⟩
    · intro a ha
      unfold across
      simp only [List.mem_cons, List.not_mem_nil, or_false] at ha
      rcases ha with rfl | rfl <;> norm_num
    · intro pre a b post h
      unfold along
      match pre, h with
      | [], h => simp only [List.nil_append, List.cons.injEq] at h; obtain ⟨rfl, rfl, _⟩ := h; norm_num
      | [_], h => simp at h
      | _ :: _ :: _, h => simp at h
    · intro pre a b post h e he hne
      have he' : e = (0, 0, 0) ∨ e = (2, 40, 1) ∨ e = (4, 80, -1) := by
        unfold benchTable at he
        simp only [List.mem_cons, List.not_mem_nil, or_false] at he hne
        tauto
      unfold along
      match pre, h with
      | [], h => simp only [List.nil_append, List.cons.injEq] at h; obtain ⟨rfl, rfl, _⟩ := h; rcases he' with rfl | rfl | rfl <;> exact hfar _ _ _ (by decide) (by norm_num)
      | [_], h => simp at h
      | _ :: _ :: _, h => simp at h

theorem bench_arrays : ArraysIn benchTable benchChains := ⟨by decide, by decide, by decide⟩

-- with the program's distances: both columns, in order, nothing left
example : matchLeds defaultMetric.dist defaultMetric.neighbours defaultMetric.weight [(0, 4), (1, 3)] "None".toList benchTable =
    .ok ([[0, 2, 4], [1, 3]], []) :=
  C133_nearly_straight benchTable (by decide) benchChains bench_arrays bench_straight "None".toList

/-! ### Refutation -/

/-- Two LEDs ten pixels apart, and five LEDs close behind the first one. -/
def crowdTable : List (ℕ × ℤ) := [(0, 0), (1, 10), (2, -1), (3, -2), (4, -3), (5, -4), (6, -5)]

/-- **C133 refuted** if it is only required that the next LED has the least weighted distance of all LEDs that are left: only the five nearest LEDs
are considered, and five LEDs behind hide the next one. -/
theorem C133_best_of_all_false : ¬ ∀ (table chain : List (ℕ × ℤ)), (table.map (·.1)).Nodup → ArraysIn table [chain] →
    (∀ pre a b post r, chain = pre ++ a :: b :: post → (b :: post).getLast? = some r → ∀ e ∈ table, e ∉ pre ++ [a, b] →
      (987 / 1000 : ℚ) * |(r.2 : ℚ) - b.2| + |(a.2 : ℚ) - b.2| < (987 / 1000 : ℚ) * |(r.2 : ℚ) - e.2| + |(a.2 : ℚ) - e.2|) →
    ∃ rest, matchLeds (fun p q : ℤ => |(p : ℚ) - q|) 5 (987 / 1000) [edgesOf chain] "None".toList table = .ok ([chain.map (·.1)], rest) := by
  intro h
  obtain ⟨rest, hr⟩ := h crowdTable [(0, 0), (1, 10)] (by decide) ⟨by decide, by decide, by decide⟩ (by
    intro pre a b post r hc hr e he hne
    match pre, hc with
    | [], hc =>
      simp only [List.nil_append, List.cons.injEq] at hc
      obtain ⟨rfl, rfl, rfl⟩ := hc
      simp only [List.getLast?_singleton, Option.some.injEq] at hr
      subst hr
      revert e
      decide +kernel
    | [_], hc => simp at hc
    | _ :: _ :: _, hc => simp at hc)
  have : (matchLeds (fun p q : ℤ => |(p : ℚ) - q|) 5 (987 / 1000) [edgesOf [((0 : ℕ), (0 : ℤ)), (1, 10)]] "None".toList crowdTable).toOption =
      some ([[0, 2, 1]], [3, 4, 5, 6]) := by decide +kernel
  rw [hr] at this
  simp [Except.toOption] at this

end Ledsa
