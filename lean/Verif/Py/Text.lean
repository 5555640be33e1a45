import Verif.Py.Basic
/-
Decimal text: `str(int)`, `str.zfill`, `int(str)`, `str.split`, `str.strip`.
-/
namespace Ledsa

/-- The character of a decimal digit. -/
def digitChar (d : Nat) : Char := Char.ofNat (48 + d)

/-- The digit of a character, if it is one. -/
def charDigit (c : Char) : Option Nat :=
  if 48 ≤ c.toNat ∧ c.toNat ≤ 57 then some (c.toNat - 48) else none

/-- Decimal digits, most significant first, with a recursion bound. -/
def natStrFuel : Nat → Nat → Str
  | 0, n => [digitChar n]
  | f + 1, n => if n < 10 then [digitChar n] else natStrFuel f (n / 10) ++ [digitChar (n % 10)]

/-- `str(n)` for a natural number (see `natStr_eq` for the recursion without a bound). -/
def natStr (n : Nat) : Str := natStrFuel n n

/-- `str(z)` for an integer. -/
def intStr (z : Int) : Str :=
  if z < 0 then '-' :: natStr z.natAbs else natStr z.natAbs

/-- `str.zfill(w)`: pad with zeros on the left, after a leading sign. -/
def zfill (w : Nat) (s : Str) : Str :=
  match s with
  | '-' :: t => '-' :: (List.replicate (w - s.length) '0' ++ t)
  | '+' :: t => '+' :: (List.replicate (w - s.length) '0' ++ t)
  | _ => List.replicate (w - s.length) '0' ++ s

/-- Whitespace in the sense of `str.split()`/`str.strip()`, restricted to ASCII. -/
def isWs (c : Char) : Bool :=
  c == ' ' || c == '\t' || c == '\n' || c == '\r' || c == '\x0b' || c == '\x0c'

/-- Value of a string of digits with accumulator; `none` if some character is no digit. -/
def digitsVal : Nat → Str → Option Nat
  | acc, [] => some acc
  | acc, c :: cs =>
    match charDigit c with
    | some d => digitsVal (10 * acc + d) cs
    | none => none

/-- A non-empty string of digits. -/
def parseNat (s : Str) : Option Nat :=
  if s = [] then none else digitsVal 0 s

/-- `str.strip()`. -/
def strip (s : Str) : Str := ((s.dropWhile isWs).reverse.dropWhile isWs).reverse

/-- `int(s)`: surrounding whitespace, an optional sign, digits (underscores are not modelled). -/
def pyInt (s : Str) : Except PyErr Int :=
  match strip s with
  | '-' :: t => match parseNat t with
    | some n => .ok (-(n : Int))
    | none => .error .valueError
  | '+' :: t => match parseNat t with
    | some n => .ok (n : Int)
    | none => .error .valueError
  | t => match parseNat t with
    | some n => .ok (n : Int)
    | none => .error .valueError

/-- `s.split(c)` for a single separator character (keeps empty fields). -/
def splitChar (c : Char) : Str → List Str
  | [] => [[]]
  | x :: xs =>
    if x = c then [] :: splitChar c xs
    else match splitChar c xs with
      | [] => [[x]]
      | f :: fs => (x :: f) :: fs

/-- `c.join(fields)` for a one character separator. -/
def joinChar (c : Char) : List Str → Str
  | [] => []
  | [f] => f
  | f :: fs => f ++ c :: joinChar c fs

/-- `s.split()`: maximal runs of non-whitespace. -/
def splitWsAux : Str → Str → List Str
  | cur, [] => if cur = [] then [] else [cur.reverse]
  | cur, x :: xs =>
    if isWs x then
      (if cur = [] then splitWsAux [] xs else cur.reverse :: splitWsAux [] xs)
    else splitWsAux (x :: cur) xs

/-- `s.split()`. -/
def splitWs (s : Str) : List Str := splitWsAux [] s

/-! ### Lemmas -/

theorem charDigit_digitChar {d : Nat} (h : d < 10) : charDigit (digitChar d) = some d := by
  have : ∀ d : Fin 10, charDigit (digitChar d.val) = some d.val := by decide
  exact this ⟨d, h⟩

theorem isWs_digitChar {d : Nat} (h : d < 10) : isWs (digitChar d) = false := by
  have : ∀ d : Fin 10, isWs (digitChar d.val) = false := by decide
  exact this ⟨d, h⟩

/-- Characters of decimal numerals. -/
def isDigit (c : Char) : Bool := 48 ≤ c.toNat && c.toNat ≤ 57

theorem isDigit_digitChar {d : Nat} (h : d < 10) : isDigit (digitChar d) = true := by
  have : ∀ d : Fin 10, isDigit (digitChar d.val) = true := by decide
  exact this ⟨d, h⟩

theorem isDigit_ne {c : Char} (h : isDigit c = true) (x : Char) (hx : isDigit x = false) : c ≠ x := by
  rintro rfl; simp [h] at hx

theorem isWs_of_isDigit {c : Char} (h : isDigit c = true) : isWs c = false := by
  have h1 := isDigit_ne h ' ' (by decide)
  have h2 := isDigit_ne h '\t' (by decide)
  have h3 := isDigit_ne h '\n' (by decide)
  have h4 := isDigit_ne h '\r' (by decide)
  have h5 := isDigit_ne h '\x0b' (by decide)
  have h6 := isDigit_ne h '\x0c' (by decide)
  simp [isWs, h1, h2, h3, h4, h5, h6]

theorem natStrFuel_mono (n : Nat) : ∀ f g, n ≤ f → n ≤ g → natStrFuel f n = natStrFuel g n := by
  induction n using Nat.strongRecOn with
  | _ n ih =>
    intro f g hf hg
    cases f with
    | zero =>
      have : n = 0 := by omega
      subst this
      cases g <;> simp [natStrFuel]
    | succ f =>
      cases g with
      | zero =>
        have : n = 0 := by omega
        subst this
        simp [natStrFuel]
      | succ g =>
        simp only [natStrFuel]
        split
        · rfl
        · rw [ih (n / 10) (by omega) f g (by omega) (by omega)]

theorem natStr_eq (n : Nat) :
    natStr n = if n < 10 then [digitChar n] else natStr (n / 10) ++ [digitChar (n % 10)] := by
  unfold natStr
  cases n with
  | zero => simp [natStrFuel]
  | succ n =>
    rw [natStrFuel]
    split
    · rfl
    · rw [natStrFuel_mono ((n + 1) / 10) n ((n + 1) / 10) (by omega) (by omega)]

theorem natStr_isDigit (n : Nat) : ∀ c ∈ natStr n, isDigit c = true := by
  induction n using Nat.strongRecOn with
  | _ n ih =>
    intro c hc
    rw [natStr_eq] at hc
    split at hc
    · rename_i h
      simp only [List.mem_singleton] at hc
      subst hc; exact isDigit_digitChar h
    · rename_i h
      simp only [List.mem_append, List.mem_singleton] at hc
      rcases hc with hc | hc
      · exact ih (n / 10) (by omega) c hc
      · subst hc; exact isDigit_digitChar (Nat.mod_lt _ (by omega))

theorem natStr_ne_nil (n : Nat) : natStr n ≠ [] := by
  rw [natStr_eq]; split <;> simp

theorem digitsVal_append (a b : Str) : ∀ acc, digitsVal acc (a ++ b) = (digitsVal acc a).bind (fun v => digitsVal v b) := by
  induction a with
  | nil => intro acc; rfl
  | cons x xs ih =>
    intro acc
    simp only [List.cons_append, digitsVal]
    cases charDigit x with
    | none => rfl
    | some d => exact ih _

theorem digitsVal_natStr (n : Nat) : digitsVal 0 (natStr n) = some n := by
  induction n using Nat.strongRecOn with
  | _ n ih =>
    rw [natStr_eq]
    split
    · rename_i h; simp [digitsVal, charDigit_digitChar h]
    · rename_i h
      rw [digitsVal_append, ih (n/10) (by omega)]
      simp only [Option.bind_some, digitsVal, charDigit_digitChar (Nat.mod_lt n (by omega : 10 > 0))]
      congr 1; omega

theorem digitsVal_zeros (k : Nat) (s : Str) : digitsVal 0 (List.replicate k '0' ++ s) = digitsVal 0 s := by
  induction k with
  | zero => simp
  | succ k ih =>
    rw [List.replicate_succ, List.cons_append]
    have : charDigit '0' = some 0 := by decide
    simp [digitsVal, this, ih]

theorem parseNat_natStr (n : Nat) : parseNat (natStr n) = some n := by
  simp [parseNat, natStr_ne_nil, digitsVal_natStr]

theorem natStr_injective {m n : Nat} (h : natStr m = natStr n) : m = n := by
  have := parseNat_natStr m
  rw [h, parseNat_natStr] at this
  simpa using this.symm

theorem dropWhile_eq_self_of_all {p : Char → Bool} {s : Str} (h : ∀ c ∈ s, p c = false) :
    s.dropWhile p = s := by
  cases s with
  | nil => rfl
  | cons a t => simp [List.dropWhile, h a (by simp)]

theorem strip_eq_self {s : Str} (h : ∀ c ∈ s, isWs c = false) : strip s = s := by
  unfold strip
  rw [dropWhile_eq_self_of_all h, dropWhile_eq_self_of_all, List.reverse_reverse]
  intro c hc; exact h c (by simpa using hc)

theorem natStr_head_ne (n : Nat) (x : Char) (hx : isDigit x = false) (t : Str) : natStr n ≠ x :: t := by
  intro h
  have := natStr_isDigit n x (by rw [h]; simp)
  simp [hx] at this

theorem pyInt_of_digits {s : Str} (hs : ∀ c ∈ s, isDigit c = true) {n : Nat} (h : parseNat s = some n) :
    pyInt s = .ok (n : Int) := by
  have hst : strip s = s := strip_eq_self fun c hc => isWs_of_isDigit (hs c hc)
  unfold pyInt
  rw [hst]
  split
  · exact absurd (hs '-' (by simp)) (by decide)
  · exact absurd (hs '+' (by simp)) (by decide)
  · rw [h]

theorem pyInt_natStr (n : Nat) : pyInt (natStr n) = .ok (n : Int) :=
  pyInt_of_digits (natStr_isDigit n) (parseNat_natStr n)

theorem pyInt_intStr (z : Int) : pyInt (intStr z) = .ok z := by
  unfold intStr
  split
  · rename_i h
    have hst : strip ('-' :: natStr z.natAbs) = '-' :: natStr z.natAbs := by
      apply strip_eq_self
      intro c hc
      simp only [List.mem_cons] at hc
      rcases hc with rfl | hc
      · decide
      · exact isWs_of_isDigit (natStr_isDigit _ c hc)
    unfold pyInt
    rw [hst]
    simp only [parseNat_natStr]
    congr 1; omega
  · rename_i h
    rw [pyInt_natStr]; congr 1; omega

theorem zfill_digits {s : Str} (hs : ∀ c ∈ s, isDigit c = true) (w : Nat) :
    zfill w s = List.replicate (w - s.length) '0' ++ s := by
  unfold zfill
  split
  · exact absurd (hs '-' (by simp)) (by decide)
  · exact absurd (hs '+' (by simp)) (by decide)
  · rfl

theorem pyInt_zfill_natStr (w n : Nat) : pyInt (zfill w (natStr n)) = .ok (n : Int) := by
  rw [zfill_digits (natStr_isDigit n)]
  apply pyInt_of_digits
  · intro c hc
    rw [List.mem_append, List.mem_replicate] at hc
    rcases hc with ⟨_, rfl⟩ | hc
    · decide
    · exact natStr_isDigit n c hc
  · unfold parseNat
    rw [digitsVal_zeros, digitsVal_natStr]
    simp [natStr_ne_nil]

theorem pyInt_zfill_intStr (w : Nat) (z : Int) : pyInt (zfill w (intStr z)) = .ok z := by
  unfold intStr
  split
  · rename_i h
    unfold zfill pyInt
    simp only
    have hst : strip ('-' :: (List.replicate (w - ('-' :: natStr z.natAbs).length) '0' ++ natStr z.natAbs)) =
        '-' :: (List.replicate (w - ('-' :: natStr z.natAbs).length) '0' ++ natStr z.natAbs) := by
      apply strip_eq_self
      intro c hc
      rw [List.mem_cons, List.mem_append, List.mem_replicate] at hc
      rcases hc with rfl | ⟨_, rfl⟩ | hc
      · decide
      · decide
      · exact isWs_of_isDigit (natStr_isDigit _ c hc)
    rw [hst]
    simp only
    have : parseNat (List.replicate (w - ('-' :: natStr z.natAbs).length) '0' ++ natStr z.natAbs) = some z.natAbs := by
      unfold parseNat
      rw [digitsVal_zeros, digitsVal_natStr]
      simp [natStr_ne_nil]
    rw [this]
    simp only
    congr 1; omega
  · rename_i h
    rw [pyInt_zfill_natStr]; congr 1; omega

theorem charDigit_none {c : Char} (h : isDigit c = false) : charDigit c = none := by
  unfold charDigit
  unfold isDigit at h
  simp at h
  rw [if_neg]; omega

theorem digitsVal_none (c : Char) (hc : isDigit c = false) {s : Str} (h : c ∈ s) :
    ∀ acc, digitsVal acc s = none := by
  induction s with
  | nil => simp at h
  | cons x xs ih =>
    intro acc
    rw [digitsVal]
    by_cases hx : c = x
    · subst hx; rw [charDigit_none hc]
    · have : c ∈ xs := by simpa [hx] using h
      cases charDigit x with
      | none => rfl
      | some d => exact ih this _

theorem parseNat_none (c : Char) {s : Str} (h : c ∈ s) (hc : isDigit c = false) : parseNat s = none := by
  unfold parseNat
  split
  · rfl
  · exact digitsVal_none c hc h 0

theorem splitChar_ne_nil (c : Char) (s : Str) : splitChar c s ≠ [] := by
  cases s with
  | nil => simp [splitChar]
  | cons x xs =>
    rw [splitChar]
    split
    · simp
    · split <;> simp

theorem splitChar_of_notMem {c : Char} {s : Str} (h : c ∉ s) : splitChar c s = [s] := by
  induction s with
  | nil => rfl
  | cons x xs ih =>
    rw [List.mem_cons, not_or] at h
    rw [splitChar, if_neg (fun e => h.1 e.symm), ih h.2]

theorem splitChar_append {c : Char} {f : Str} (h : c ∉ f) (s : Str) :
    splitChar c (f ++ c :: s) = f :: splitChar c s := by
  induction f with
  | nil => simp [splitChar]
  | cons x xs ih =>
    rw [List.mem_cons, not_or] at h
    rw [List.cons_append, splitChar, if_neg (fun e => h.1 e.symm), ih h.2]

theorem splitChar_joinChar {c : Char} {fs : List Str} (hne : fs ≠ []) (h : ∀ f ∈ fs, c ∉ f) :
    splitChar c (joinChar c fs) = fs := by
  induction fs with
  | nil => exact absurd rfl hne
  | cons f fs ih =>
    cases fs with
    | nil => exact splitChar_of_notMem (h f (by simp))
    | cons g gs =>
      rw [joinChar]
      · rw [splitChar_append (h f (by simp)), ih (by simp)]
        intro x hx; exact h x (List.mem_cons_of_mem _ hx)
      · simp

theorem mapM_ok {α β ε : Type} {f : α → Except ε β} {g : α → β} {l : List α} (h : ∀ x ∈ l, f x = .ok (g x)) :
    l.mapM f = .ok (l.map g) := by
  induction l with
  | nil => rfl
  | cons a t ih =>
    rw [List.mapM_cons, h a (by simp), ih (fun x hx => h x (List.mem_cons_of_mem _ hx))]
    rfl

theorem mapM_error {α β ε : Type} {f : α → Except ε β} {l : List α} (h : ∃ x ∈ l, ∃ e, f x = .error e) :
    ∃ e, l.mapM f = .error e := by
  induction l with
  | nil => obtain ⟨x, hx, _⟩ := h; cases hx
  | cons a t ih =>
    rw [List.mapM_cons]
    cases ha : f a with
    | error e => exact ⟨e, rfl⟩
    | ok b =>
      obtain ⟨x, hx, e, he⟩ := h
      rcases List.mem_cons.1 hx with rfl | hx
      · rw [ha] at he; cases he
      · obtain ⟨e', he'⟩ := ih ⟨x, hx, e, he⟩
        exact ⟨e', by rw [he']; rfl⟩

theorem mem_of_mapM_ok {α β ε : Type} {f : α → Except ε β} : ∀ {l : List α} {r : List β}, l.mapM f = .ok r →
    r.length = l.length ∧ ∀ (k : Nat) (x : α), l[k]? = some x → ∃ y, r[k]? = some y ∧ f x = .ok y := by
  intro l
  induction l with
  | nil =>
    intro r h
    have : r = [] := by
      have h' : Except.ok (ε := ε) ([] : List β) = .ok r := h
      exact (Except.ok.inj h').symm
    subst this
    simp
  | cons a t ih =>
    intro r h
    rw [List.mapM_cons] at h
    cases ha : f a with
    | error e => rw [ha] at h; cases h
    | ok b =>
      rw [ha] at h
      cases ht : t.mapM f with
      | error e => rw [ht] at h; cases h
      | ok bs =>
        rw [ht] at h
        have h' : Except.ok (ε := ε) (b :: bs) = .ok r := h
        obtain rfl := Except.ok.inj h'
        obtain ⟨h1, h2⟩ := ih ht
        refine ⟨by simp [h1], ?_⟩
        intro k x hk
        cases k with
        | zero =>
          simp only [List.getElem?_cons_zero, Option.some.injEq] at hk ⊢
          exact ⟨b, rfl, hk ▸ ha⟩
        | succ k =>
          simp only [List.getElem?_cons_succ] at hk ⊢
          exact h2 k x hk

theorem natStr_length_le (k : Nat) : ∀ n, n < 10 ^ (k + 1) → (natStr n).length ≤ k + 1 := by
  induction k with
  | zero =>
    intro n h
    rw [natStr_eq, if_pos (by omega)]
    simp
  | succ k ih =>
    intro n h
    rw [natStr_eq]
    split
    · simp
    · have := ih (n / 10) (by rw [Nat.pow_succ] at h; omega)
      simp
      omega

theorem zfill_natStr_isDigit (k n : Nat) : ∀ c ∈ zfill k (natStr n), isDigit c = true := by
  intro c hc
  rw [zfill_digits (natStr_isDigit n), List.mem_append, List.mem_replicate] at hc
  rcases hc with ⟨_, rfl⟩ | hc
  · decide
  · exact natStr_isDigit n c hc

theorem parseNat_zfill_natStr (k n : Nat) : parseNat (zfill k (natStr n)) = some n := by
  rw [zfill_digits (natStr_isDigit n), parseNat, if_neg (by simp [natStr_ne_nil]), digitsVal_zeros, digitsVal_natStr]

theorem zfill_natStr_length (k n : Nat) (h : n < 10 ^ (k + 1)) : (zfill (k + 1) (natStr n)).length = k + 1 := by
  have := natStr_length_le k n h
  rw [zfill_digits (natStr_isDigit _), List.length_append, List.length_replicate]
  omega

theorem notMem_of_isDigit {c : Char} {s : Str} (hs : ∀ x ∈ s, isDigit x = true) (hc : isDigit c = false) : c ∉ s := by
  intro hm
  rw [hs c hm] at hc
  cases hc

theorem splitWsAux_token (t rest : Str) (ht : ∀ c ∈ t, isWs c = false) : ∀ cur : Str,
    splitWsAux cur (t ++ rest) = splitWsAux (t.reverse ++ cur) rest := by
  induction t with
  | nil => intro cur; rfl
  | cons x t ih =>
    intro cur
    rw [List.cons_append, splitWsAux, if_neg (by rw [ht x (by simp)]; decide), ih (fun c hc => ht c (by simp [hc]))]
    simp

theorem splitWsAux_space (w rest : Str) (hw : ∀ c ∈ w, isWs c = true) :
    splitWsAux [] (w ++ rest) = splitWsAux [] rest := by
  induction w with
  | nil => rfl
  | cons x w ih =>
    rw [List.cons_append, splitWsAux, if_pos (hw x (by simp)), if_pos rfl, ih (fun c hc => hw c (by simp [hc]))]

/-- Text made of tokens, each followed by some white space. -/
def spaced : List (Str × Str) → Str
  | [] => []
  | (t, w) :: ts => t ++ w ++ spaced ts

/-- `split()` recovers the tokens, whatever white space surrounds them. -/
theorem splitWs_spaced (lead : Str) (hl : ∀ c ∈ lead, isWs c = true) : ∀ (ts : List (Str × Str)),
    (∀ p ∈ ts, p.1 ≠ [] ∧ (∀ c ∈ p.1, isWs c = false) ∧ p.2 ≠ [] ∧ ∀ c ∈ p.2, isWs c = true) →
    splitWs (lead ++ spaced ts) = ts.map (·.1) := by
  intro ts h
  unfold splitWs
  rw [splitWsAux_space _ _ hl]
  induction ts with
  | nil => rfl
  | cons p ts ih =>
    obtain ⟨t, w⟩ := p
    obtain ⟨h1, h2, h3, h4⟩ := h (t, w) (by simp)
    dsimp only at h1 h2 h3 h4
    cases w with
    | nil => exact absurd rfl h3
    | cons x w =>
      rw [spaced, List.append_assoc, splitWsAux_token t _ h2, List.cons_append, splitWsAux,
        if_pos (h4 x (by simp)), if_neg (by simpa using h1), splitWsAux_space _ _ (fun c hc => h4 c (by simp [hc])),
        ih (fun p hp => h p (by simp [hp]))]
      simp

theorem splitWsAux_trail (w : Str) (hw : ∀ c ∈ w, isWs c = true) : ∀ (s cur : Str),
    splitWsAux cur (s ++ w) = splitWsAux cur s
  | [], cur => by
    cases w with
    | nil => rfl
    | cons x w =>
      have hsp := splitWsAux_space w [] (fun c hc => hw c (by simp [hc]))
      rw [List.append_nil] at hsp
      have hx := hw x (by simp)
      simp only [List.nil_append, splitWsAux, hx, if_true, hsp]
  | x :: s, cur => by
    rw [List.cons_append, splitWsAux, splitWsAux, splitWsAux_trail w hw s, splitWsAux_trail w hw s]

/-- White space around the text does not change its tokens. -/
theorem splitWs_strip (s : Str) : splitWs (strip s) = splitWs s := by
  have e : ∀ t : Str, t = (t.reverse.dropWhile isWs).reverse ++ (t.reverse.takeWhile isWs).reverse := by
    intro t
    rw [← List.reverse_append, List.takeWhile_append_dropWhile, List.reverse_reverse]
  have h1 : splitWs s = splitWs (s.dropWhile isWs) := by
    have h := splitWsAux_space (s.takeWhile isWs) (s.dropWhile isWs)
      (fun c hc => List.all_eq_true.1 List.all_takeWhile c hc)
    rw [List.takeWhile_append_dropWhile] at h
    exact h
  rw [h1, e (s.dropWhile isWs)]
  unfold splitWs strip
  rw [splitWsAux_trail]
  intro c hc
  exact List.all_eq_true.1 List.all_takeWhile c (List.mem_reverse.1 hc)

theorem intStr_notWs (z : Int) : ∀ c ∈ intStr z, isWs c = false := by
  intro c hc
  unfold intStr at hc
  split at hc
  · rcases List.mem_cons.1 hc with rfl | hc
    · decide
    · exact isWs_of_isDigit (natStr_isDigit _ c hc)
  · exact isWs_of_isDigit (natStr_isDigit _ c hc)

theorem intStr_ne_nil (z : Int) : intStr z ≠ [] := by
  unfold intStr
  split
  · simp
  · exact natStr_ne_nil _

end Ledsa
