import Verif.Props.Config
import Verif.Props.Step2
import Verif.Model.EdgeDialog
import Verif.Model.Positions
import Verif.Model.Extraction
/-
C140: what is entered for the ends of the LED arrays is what every run uses.
-/
namespace Ledsa

/-! ### Values -/

theorem reloaded_eq (v : List Str) : reloaded v = normLines v := rfl

/-- A value that was entered is never read as unset. -/
theorem reloaded_prompt_ne (l : List Str) : reloaded (promptLines l) ≠ ["None".toList] := by
  intro h
  obtain ⟨r, hr⟩ : ∃ r, ((promptLines l).map strip).reverse = r ++ [[]] := by
    refine ⟨(((l.map fun a => "\t    ".toList ++ a) ++ [[]]).map strip).reverse, ?_⟩
    show ((([] : Str) :: ((l.map fun a => "\t    ".toList ++ a) ++ [[]])).map strip).reverse = _
    rw [List.map_cons, List.reverse_cons]
    rfl
  rw [reloaded, hr, joinLines] at h
  split at h
  · revert h; decide
  · rename_i hne
    have hl := congrArg List.reverse h
    rw [List.reverse_reverse] at hl
    have key : ∀ r : List Str, (r ++ [[]]).dropWhile (· = []) = [] ∨ ∃ q, (r ++ [[]]).dropWhile (· = []) = q ++ [[]] := by
      intro r
      induction r with
      | nil => left; rfl
      | cons a r ih =>
        by_cases ha : a = []
        · rw [List.cons_append, List.dropWhile_cons_of_pos (by simpa using ha)]
          exact ih
        · rw [List.cons_append, List.dropWhile_cons_of_neg (by simpa using ha)]
          exact Or.inr ⟨a :: r, rfl⟩
    rcases key r with e | ⟨q, e⟩
    · exact absurd e (by simpa using hne)
    · rw [e] at hl
      have h2 := congrArg List.getLast? hl
      rw [List.getLast?_append] at h2
      have h3 : some ([] : Str) = some "None".toList := h2
      exact absurd h3 (by decide)

theorem promptLines_ne (l : List Str) : promptLines l ≠ ["None".toList] := by
  intro h
  have := congrArg List.head? h
  revert this
  show ¬ (some ([] : Str) = some "None".toList)
  decide

theorem percentOk_of_not_mem {v : Str} (h : '%' ∉ v) : percentOk v = true := by
  unfold percentOk
  rw [dropDoublePercent_of_not_mem v h]
  simpa using h

theorem askEnds_ok {num : Str} {n : ℕ} (hn : pyInt num = .ok (n : ℤ)) {ans : ℕ → Str} (hp : ∀ i < n, '%' ∉ ans i) :
    askEnds num ans = .ok (promptLines ((List.range n).map ans)) := by
  unfold askEnds
  rw [hn]
  have : ((List.range (n : ℤ).toNat).map ans).all percentOk = true := by
    rw [List.all_eq_true]
    intro x hx
    obtain ⟨i, hi, rfl⟩ := List.mem_map.1 hx
    exact percentOk_of_not_mem (hp i (by simpa using hi))
  simp only [this, if_true]
  rfl

theorem get2dBy_prompt {α : Type} (conv : Str → Except PyErr α) (n : ℕ) (l : List Str) :
    get2dBy conv n (promptLines l) = match (l.flatMap splitWs).mapM conv with
      | .ok x => .ok (some (rowsOf n x))
      | .error e => .error e := by
  unfold get2dBy
  rw [if_neg (promptLines_ne l), promptLines_tokens]
  rfl

theorem get2dBy_reloaded {α : Type} (conv : Str → Except PyErr α) (n : ℕ) (l : List Str) :
    get2dBy conv n (reloaded (promptLines l)) = get2dBy conv n (promptLines l) := by
  rw [get2dBy_prompt]
  unfold get2dBy
  rw [if_neg (reloaded_prompt_ne l), reloaded_eq, normLines_tokens, promptLines_tokens]
  rfl

/-- Lines with rows of the expected length are read as these rows. -/
theorem get2dBy_rows {α : Type} (conv : Str → Except PyErr α) {n : ℕ} (hn : 0 < n) {l : List Str} {rows : List (List α)}
    (h : l.mapM (fun a => (splitWs a).mapM conv) = .ok rows) (hlen : ∀ r ∈ rows, r.length = n) :
    get2dBy conv n (promptLines l) = .ok (some rows) := by
  rw [get2dBy_prompt, mapM_flatMap_ok _ _ _ _ h]
  simp only [rowsOf_flatten n hn rows hlen]

/-! ### Histories -/

theorem edges_kept {α : Type} (float : Str → Except PyErr α) : ∀ (runs : List EdgeRun) (c : EdgeCfg), c.edges ≠ ["None".toList] →
    (afterRuns float c runs).edges = c.edges
  | [], _, _ => rfl
  | r :: runs, c, h => by
    have h1 : (EdgeRun.after float c r).edges = c.edges := by
      cases r with
      | step2 ans => simp only [EdgeRun.after, step2Ends, if_neg h]
      | positions ans =>
        simp only [EdgeRun.after, coordEnds]
        split
        · split <;> rfl
        · rfl
    show (afterRuns float (EdgeRun.after float c r) runs).edges = _
    rw [edges_kept float runs _ (by rw [h1]; exact h), h1]

theorem coords_kept {α : Type} (float : Str → Except PyErr α) : ∀ (runs : List EdgeRun) (c : EdgeCfg), c.coords ≠ ["None".toList] →
    (afterRuns float c runs).coords = c.coords
  | [], _, _ => rfl
  | r :: runs, c, h => by
    have h1 : (EdgeRun.after float c r).coords = c.coords := by
      cases r with
      | positions ans => simp only [EdgeRun.after, coordEnds, if_neg h]
      | step2 ans =>
        simp only [EdgeRun.after, step2Ends]
        split
        · split <;> rfl
        · rfl
    show (afterRuns float (EdgeRun.after float c r) runs).coords = _
    rw [coords_kept float runs _ (by rw [h1]; exact h), h1]

theorem num_kept {α : Type} (float : Str → Except PyErr α) : ∀ (runs : List EdgeRun) (c : EdgeCfg), (afterRuns float c runs).num = c.num
  | [], _ => rfl
  | r :: runs, c => by
    have h1 : (EdgeRun.after float c r).num = c.num := by
      cases r with
      | step2 ans => simp only [EdgeRun.after, step2Ends]; split <;> [split; skip] <;> rfl
      | positions ans => simp only [EdgeRun.after, coordEnds]; split <;> [split; skip] <;> rfl
    show (afterRuns float (EdgeRun.after float c r) runs).num = _
    rw [num_kept float runs _, h1]

/-- What step 2 does with a value that is set. -/
theorem step2Ends_set {c : EdgeCfg} (h : c.edges ≠ ["None".toList]) (ans : ℕ → Str) : step2Ends ans c = ⟨c, 0, .ok (outerLeds c.edges)⟩ := by
  unfold step2Ends
  rw [if_neg h]

theorem coordEnds_set {α : Type} (float : Str → Except PyErr α) {c : EdgeCfg} (h : c.coords ≠ ["None".toList]) (ans : ℕ → Str) :
    coordEnds float ans c = ⟨c, 0, endCoords float c.coords⟩ := by
  unfold coordEnds
  rw [if_neg h]

/-- What step 2 does when it has to ask. -/
theorem step2Ends_asked {c : EdgeCfg} (hc : c.edges = ["None".toList]) {n : ℕ} (hn : pyInt c.num = .ok (n : ℤ)) {ans : ℕ → Str}
    (hp : ∀ i < n, '%' ∉ ans i) :
    step2Ends ans c = ⟨{ c with edges := reloaded (promptLines ((List.range n).map ans)) }, n,
      .ok (outerLeds (promptLines ((List.range n).map ans)))⟩ := by
  unfold step2Ends
  rw [if_pos hc, askEnds_ok hn hp, hn]
  rfl

theorem coordEnds_asked {α : Type} (float : Str → Except PyErr α) {c : EdgeCfg} (hc : c.coords = ["None".toList]) {n : ℕ}
    (hn : pyInt c.num = .ok (n : ℤ)) {ans : ℕ → Str} (hp : ∀ i < n, '%' ∉ ans i) :
    coordEnds float ans c = ⟨{ c with coords := reloaded (promptLines ((List.range n).map ans)) }, n,
      endCoords float (promptLines ((List.range n).map ans))⟩ := by
  unfold coordEnds
  rw [if_pos hc, askEnds_ok hn hp, hn]
  rfl

/-- **C140.** Once the LED numbers of the ends have been asked for, no later run asks again, whatever was entered: every later run of step 2 uses what
the first one used, also if `num_arrays` is edited meanwhile. -/
theorem C140_kept {α : Type} (float : Str → Except PyErr α) {c : EdgeCfg} (hc : c.edges = ["None".toList]) {n : ℕ}
    (hn : pyInt c.num = .ok (n : ℤ)) {ans : ℕ → Str} (hp : ∀ i < n, '%' ∉ ans i) (runs : List EdgeRun) (num : Str) (ans' : ℕ → Str) :
    (step2Ends ans' { afterRuns float (step2Ends ans c).cfg runs with num := num }).asked = 0 ∧
    (step2Ends ans' { afterRuns float (step2Ends ans c).cfg runs with num := num }).used = (step2Ends ans c).used := by
  have he : (step2Ends ans c).cfg.edges = reloaded (promptLines ((List.range n).map ans)) := by rw [step2Ends_asked hc hn hp]
  have hk := edges_kept float runs (step2Ends ans c).cfg (by rw [he]; exact reloaded_prompt_ne _)
  rw [he] at hk
  rw [step2Ends_set (by show (afterRuns _ _ _).edges ≠ _; rw [hk]; exact reloaded_prompt_ne _)]
  refine ⟨rfl, ?_⟩
  show Except.ok (outerLeds (afterRuns _ _ _).edges) = _
  rw [hk, step2Ends_asked hc hn hp]
  unfold outerLeds
  rw [get2dBy_reloaded]

/-- **C140.** The same for the coordinates of the ends. -/
theorem C140_kept_coordinates {α : Type} (float : Str → Except PyErr α) {c : EdgeCfg} (hc : c.coords = ["None".toList]) {n : ℕ}
    (hn : pyInt c.num = .ok (n : ℤ)) {ans : ℕ → Str} (hp : ∀ i < n, '%' ∉ ans i) (runs : List EdgeRun) (num : Str) (ans' : ℕ → Str) :
    (coordEnds float ans' { afterRuns float (coordEnds float ans c).cfg runs with num := num }).asked = 0 ∧
    (coordEnds float ans' { afterRuns float (coordEnds float ans c).cfg runs with num := num }).used = (coordEnds float ans c).used := by
  have he : (coordEnds float ans c).cfg.coords = reloaded (promptLines ((List.range n).map ans)) := by rw [coordEnds_asked float hc hn hp]
  have hk := coords_kept float runs (coordEnds float ans c).cfg (by rw [he]; exact reloaded_prompt_ne _)
  rw [he] at hk
  rw [coordEnds_set float (by show (afterRuns _ _ _).coords ≠ _; rw [hk]; exact reloaded_prompt_ne _)]
  refine ⟨rfl, ?_⟩
  show endCoords float (afterRuns _ _ _).coords = _
  rw [hk, coordEnds_asked float hc hn hp]
  unfold endCoords
  rw [get2dBy_reloaded]

theorem lines_rows {α : Type} {conv : Str → Except PyErr α} {n : ℕ} {ans : ℕ → Str} {row : ℕ → List α}
    (h : ∀ i < n, (splitWs (ans i)).mapM conv = .ok (row i)) :
    ((List.range n).map ans).mapM (fun a => (splitWs a).mapM conv) = .ok ((List.range n).map row) := by
  rw [List.mapM_map]
  exact mapM_ok fun i hi => h i (List.mem_range.1 hi)

/-- **C140.** If numbers are entered for every array, step 2 asks once for each array, and it uses the lines as entered iff every line has exactly two
numbers. -/
theorem C140_ends_iff {c : EdgeCfg} (hc : c.edges = ["None".toList]) {n : ℕ} (hn : pyInt c.num = .ok (n : ℤ)) {ans : ℕ → Str}
    (hp : ∀ i < n, '%' ∉ ans i) {row : ℕ → List ℤ} (h : ∀ i < n, (splitWs (ans i)).mapM pyInt = .ok (row i)) :
    (step2Ends ans c).asked = n ∧
    ((step2Ends ans c).used = .ok ((List.range n).map row) ↔ ∀ i < n, (row i).length = 2) := by
  rw [step2Ends_asked hc hn hp]
  refine ⟨rfl, ?_⟩
  have e : outerLeds (promptLines ((List.range n).map ans)) = rowsOf 2 ((List.range n).map row).flatten := by
    unfold outerLeds
    rw [get2dBy_prompt, mapM_flatMap_ok _ _ _ _ (lines_rows h)]
  constructor
  · intro hu i hi
    have hu := Except.ok.inj hu
    rw [e] at hu
    exact rowsOf_length 2 _ (row i) (by rw [hu]; exact List.mem_map.2 ⟨i, by simpa using hi, rfl⟩)
  · intro hl
    show Except.ok (outerLeds _) = _
    rw [e, rowsOf_flatten 2 (by decide)]
    intro r hr
    obtain ⟨i, hi, rfl⟩ := List.mem_map.1 hr
    exact hl i (by simpa using hi)

/-- **C140.** For the coordinates: as entered iff every line has exactly six numbers. -/
theorem C140_coordinates_iff {α : Type} (float : Str → Except PyErr α) {c : EdgeCfg} (hc : c.coords = ["None".toList]) {n : ℕ}
    (hn : pyInt c.num = .ok (n : ℤ)) {ans : ℕ → Str} (hp : ∀ i < n, '%' ∉ ans i) {row : ℕ → List α}
    (h : ∀ i < n, (splitWs (ans i)).mapM float = .ok (row i)) :
    (coordEnds float ans c).asked = n ∧
    ((coordEnds float ans c).used = .ok ((List.range n).map row) ↔ ∀ i < n, (row i).length = 6) := by
  rw [coordEnds_asked float hc hn hp]
  refine ⟨rfl, ?_⟩
  have e : endCoords float (promptLines ((List.range n).map ans)) = .ok (rowsOf 6 ((List.range n).map row).flatten) := by
    unfold endCoords
    rw [get2dBy_prompt, mapM_flatMap_ok _ _ _ _ (lines_rows h)]
  constructor
  · intro hu i hi
    have hu : endCoords float _ = _ := hu
    rw [e] at hu
    exact rowsOf_length 6 _ (row i) (by rw [Except.ok.inj hu]; exact List.mem_map.2 ⟨i, by simpa using hi, rfl⟩)
  · intro hl
    show endCoords float _ = _
    rw [e, rowsOf_flatten 6 (by decide)]
    intro r hr
    obtain ⟨i, hi, rfl⟩ := List.mem_map.1 hr
    exact hl i (by simpa using hi)

/-- Refuted: a wrong entry cannot be corrected by running the program again. If something that is no whole number is entered, this run and every later
run of step 2 go on without any LED array, without an error and without asking. -/
theorem C140_wrong_entry_false {α : Type} (float : Str → Except PyErr α) {c : EdgeCfg} (hc : c.edges = ["None".toList]) {n : ℕ}
    (hn : pyInt c.num = .ok (n : ℤ)) {ans : ℕ → Str} (hp : ∀ i < n, '%' ∉ ans i)
    (hw : ∃ i < n, ∃ t ∈ splitWs (ans i), ∃ e, pyInt t = .error e) :
    (step2Ends ans c).used = .ok [] ∧ ∀ (runs : List EdgeRun) (ans' : ℕ → Str),
      (step2Ends ans' (afterRuns float (step2Ends ans c).cfg runs)).asked = 0 ∧
      (step2Ends ans' (afterRuns float (step2Ends ans c).cfg runs)).used = .ok [] := by
  have h1 : (step2Ends ans c).used = .ok [] := by
    rw [step2Ends_asked hc hn hp]
    obtain ⟨i, hi, t, ht, he⟩ := hw
    obtain ⟨e, he⟩ := mapM_error (f := pyInt) (l := ((List.range n).map ans).flatMap splitWs)
      ⟨t, List.mem_flatMap.2 ⟨ans i, List.mem_map.2 ⟨i, by simpa using hi, rfl⟩, ht⟩, he⟩
    show Except.ok (outerLeds _) = _
    unfold outerLeds
    rw [get2dBy_prompt, he]
  refine ⟨h1, fun runs ans' => ?_⟩
  have := C140_kept float hc hn hp runs (afterRuns float (step2Ends ans c).cfg runs).num ans'
  rw [h1] at this
  exact this

/-- Wrong coordinates are reported, but they cannot be corrected by running the program again either: every later run raises the same
exception without asking. -/
theorem C140_wrong_coordinates_false {α : Type} (float : Str → Except PyErr α) {c : EdgeCfg} (hc : c.coords = ["None".toList]) {n : ℕ}
    (hn : pyInt c.num = .ok (n : ℤ)) {ans : ℕ → Str} (hp : ∀ i < n, '%' ∉ ans i)
    (hw : ∃ i < n, ∃ t ∈ splitWs (ans i), ∃ e, float t = .error e) :
    ∃ e, (coordEnds float ans c).used = .error e ∧ ∀ (runs : List EdgeRun) (ans' : ℕ → Str),
      (coordEnds float ans' (afterRuns float (coordEnds float ans c).cfg runs)).asked = 0 ∧
      (coordEnds float ans' (afterRuns float (coordEnds float ans c).cfg runs)).used = .error e := by
  obtain ⟨i, hi, t, ht, he⟩ := hw
  obtain ⟨e, he⟩ := mapM_error (f := float) (l := ((List.range n).map ans).flatMap splitWs)
    ⟨t, List.mem_flatMap.2 ⟨ans i, List.mem_map.2 ⟨i, by simpa using hi, rfl⟩, ht⟩, he⟩
  have h1 : (coordEnds float ans c).used = .error e := by
    rw [coordEnds_asked float hc hn hp]
    show endCoords float _ = _
    unfold endCoords
    rw [get2dBy_prompt, he]
  refine ⟨e, h1, fun runs ans' => ?_⟩
  have := C140_kept_coordinates float hc hn hp runs (afterRuns float (coordEnds float ans c).cfg runs).num ans'
  rw [h1] at this
  exact this

/-- Refuted: without a number of arrays step 2 asks nothing and goes on without any LED array. -/
theorem C140_no_number_false {c : EdgeCfg} (hc : c.edges = ["None".toList]) {e : PyErr} (hn : pyInt c.num = .error e) (ans : ℕ → Str) :
    (step2Ends ans c).asked = 0 ∧ (step2Ends ans c).used = .ok [] ∧ (step2Ends ans c).cfg = c := by
  unfold step2Ends askEnds
  rw [if_pos hc, hn]
  exact ⟨rfl, rfl, rfl⟩

/-- Refuted: a percent sign in an entry loses all entries of the dialogue; step 2 goes on without any LED array. -/
theorem C140_percent_false {c : EdgeCfg} (hc : c.edges = ["None".toList]) {n : ℕ} (hn : pyInt c.num = .ok (n : ℤ)) {ans : ℕ → Str}
    (hw : ∃ i < n, percentOk (ans i) = false) :
    (step2Ends ans c).asked = n ∧ (step2Ends ans c).used = .ok [] ∧ (step2Ends ans c).cfg = c := by
  obtain ⟨i, hi, hb⟩ := hw
  have : askEnds c.num ans = .error .valueError := by
    unfold askEnds
    rw [hn]
    have : ((List.range (n : ℤ).toNat).map ans).all percentOk = false := by
      rw [List.all_eq_false]
      exact ⟨ans i, List.mem_map.2 ⟨i, by simpa using hi, rfl⟩, by simp [hb]⟩
    simp only [this]
    rfl
  unfold step2Ends
  rw [if_pos hc, this, hn]
  exact ⟨rfl, rfl, rfl⟩

/-! ### The options of the other models -/

theorem splitWsAux_sep (b : Char) (hb : isWs b = true) (t : Str) : ∀ (s cur : Str),
    splitWsAux cur (s ++ b :: t) = splitWsAux cur s ++ splitWsAux [] t
  | [], cur => by
    rw [List.nil_append, splitWsAux, splitWsAux, if_pos hb]
    split <;> simp
  | x :: s, cur => by
    rw [List.cons_append, splitWsAux, splitWsAux]
    split
    · split
      · exact splitWsAux_sep b hb t s []
      · rw [splitWsAux_sep b hb t s [], List.cons_append]
    · exact splitWsAux_sep b hb t s (x :: cur)

theorem splitWs_joinLines : ∀ ls : List Str, splitWs (joinChar '\n' ls) = ls.flatMap splitWs
  | [] => rfl
  | [s] => by simp [joinChar]
  | s :: s' :: ls => by
    rw [List.flatMap_cons, ← splitWs_joinLines (s' :: ls)]
    exact splitWsAux_sep '\n' (by decide) _ s []

theorem pairUp_pairs (l : List (ℤ × ℤ)) : pairUp (l.flatMap fun p => [p.1, p.2]) = l := by
  induction l with
  | nil => rfl
  | cons p l ih => simp [pairUp, ih]

/-- **C140.** With two numbers in each line, the text of the option, as entered and as loaded later, gives step 2 these pairs. -/
theorem C140_step2_pairs {n : ℕ} {ans : ℕ → Str} {p : ℕ → ℤ × ℤ} (h : ∀ i < n, (splitWs (ans i)).mapM pyInt = .ok [(p i).1, (p i).2])
    (v : List Str) (hv : v = promptLines ((List.range n).map ans) ∨ v = reloaded (promptLines ((List.range n).map ans))) :
    edgeIndices (joinChar '\n' v) = (List.range n).map p := by
  have e : splitWs (joinChar '\n' v) = ((List.range n).map ans).flatMap splitWs := by
    rw [splitWs_joinLines]
    rcases hv with rfl | rfl
    · rw [promptLines_tokens]
    · rw [reloaded_eq, normLines_tokens, promptLines_tokens]
  unfold edgeIndices
  rw [e, mapM_flatMap_ok _ _ _ _ (lines_rows (row := fun i => [(p i).1, (p i).2]) h)]
  show pairUp _ = _
  rw [show ((List.range n).map fun i => [(p i).1, (p i).2]).flatten = ((List.range n).map p).flatMap fun p => [p.1, p.2] by
    rw [List.flatMap_map, List.flatMap_def]]
  exact pairUp_pairs _

/-- A row of six numbers as two points. -/
def rowEnds (r : List ℝ) : Option (P3 × P3) :=
  match r with
  | [a, b, c, d, e, f] => some ((a, b, c), (d, e, f))
  | _ => none

/-- **C140.** With six numbers in each line, the coordinates of array `k` are those entered for array `k`, top end first. -/
theorem C140_positions (float : Str → Except PyErr ℝ) {c : EdgeCfg} (hc : c.coords = ["None".toList]) {n : ℕ}
    (hn : pyInt c.num = .ok (n : ℤ)) {ans : ℕ → Str} (hp : ∀ i < n, '%' ∉ ans i) {T B : ℕ → P3}
    (h : ∀ i < n, (splitWs (ans i)).mapM float = .ok [(T i).1, (T i).2.1, (T i).2.2, (B i).1, (B i).2.1, (B i).2.2]) :
    ∃ rows, (coordEnds float ans c).used = .ok rows ∧ rows.map rowEnds = (List.range n).map fun (k : ℕ) => some (T k, B k) := by
  refine ⟨_, ((C140_coordinates_iff float hc hn hp h).2).2 fun i _ => rfl, ?_⟩
  rw [List.map_map]
  rfl

example : (step2Ends (fun i => if i = 0 then "457 246".toList else " 12   347".toList) ⟨"2".toList, ["None".toList], ["None".toList]⟩) =
    ⟨⟨"2".toList, [[], "457 246".toList, "12   347".toList], ["None".toList]⟩, 2, .ok [[457, 246], [12, 347]]⟩ := by
  decide +kernel

/-- A forgotten number gives the arrays wrong ends. -/
example : (step2Ends (fun i => if i = 1 then "12".toList else "457 246".toList) ⟨"3".toList, ["None".toList], ["None".toList]⟩).used =
    .ok [[457, 246], [12, 457]] := by
  decide +kernel

/-- Coordinates of the demo. -/
example : (coordEnds (fun s => match readFloat s with | some q => .ok q | none => .error .valueError)
    (fun _ => "6.86 3.13 1.14 5.98 2.83 3.32".toList) ⟨"1".toList, ["None".toList], ["None".toList]⟩).used =
    .ok [[343 / 50, 313 / 100, 57 / 50, 299 / 50, 283 / 100, 83 / 25]] := by
  decide +kernel

/-- A comma. -/
example : (step2Ends (fun _ => "457, 246".toList) ⟨"2".toList, ["None".toList], ["None".toList]⟩) =
    ⟨⟨"2".toList, [[], "457, 246".toList, "457, 246".toList], ["None".toList]⟩, 2, .ok []⟩ := by
  decide +kernel

end Ledsa
