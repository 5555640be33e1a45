import Verif.Props.Extraction
import Verif.Props.Schedule
/-!
# C183: a run of step 3 with fitting that was completed by the restart

`--restart` always runs without fits (/repo/ledsa/core/parser_arguments_run.py 90-94). Specification: the result files of all photos
can be loaded for the analysis (/repo/ledsa/core/file_handling.py 220-272).
-/

namespace Ledsa

/-! ### Tables with different numbers of columns -/

theorem mapM_one_error {α β ε : Type} {f : α → Except ε β} {e : ε} : ∀ {l : List α}, (∀ x ∈ l, (∃ b, f x = .ok b) ∨ f x = .error e) →
    (∃ x ∈ l, f x = .error e) → l.mapM f = .error e
  | [], _, h => by obtain ⟨x, hx, _⟩ := h; cases hx
  | a :: l, hall, hex => by
    rw [List.mapM_cons]
    rcases hall a (by simp) with ⟨b, hb⟩ | hb
    · rw [hb]
      obtain ⟨x, hx, he⟩ := hex
      rcases List.mem_cons.1 hx with rfl | hx
      · rw [hb] at he; cases he
      · simp only [bind, Except.bind]
        rw [mapM_one_error (fun y hy => hall y (List.mem_cons_of_mem _ hy)) ⟨x, hx, he⟩]
    · rw [hb]; rfl

/-- A table with another number of columns does not fit. -/
theorem loadImage_width (t : List (ℕ × List ℚ)) (k : ℕ) (ht : GoodTable t k) (c : Option (List (ℕ × List ℚ × ℚ × ℚ)))
    (hc : GoodCoords c t) (cols : List String) (hcols : cols.length ≠ k + 5) (img : ℕ) :
    loadImage (some (asTable t)) (c.map fun c => c.map fun r => (r.1, r.2.2)) cols img = .error .valueError := by
  obtain ⟨l, e1, e2, e3, e4⟩ := withCoordinates_ok t c ht.nodup hc
  unfold loadImage
  rw [readTable_mat (asTable t) k (by unfold asTable; rw [List.length_map]; exact ht.two) (asTable_length t k ht.width)]
  simp only
  rw [idRows_asTable]
  simp only [bind, Except.bind]
  rw [e1]
  simp only
  rw [if_neg]
  intro hall
  obtain ⟨x, hx⟩ : ∃ x, x ∈ t := by
    cases t with
    | nil => exact absurd ht.two (by simp)
    | cons x t => exact ⟨x, by simp⟩
  obtain ⟨w, hw⟩ := (e3 x.1 x.2).2 hx
  have := hall _ (List.mem_map.2 ⟨_, hw, rfl⟩)
  simp only [frameRow, List.length_cons, List.length_append, List.length_map, List.length_nil, ht.width x hx] at this
  omega

/-- The first six values of a row are there. -/
def SixValues (r : List Cell) : Prop := ∃ (a b c d e f : ℚ) (rest : List Cell), r = some a :: some b :: some c :: some d :: some e :: some f :: rest

theorem castCol_six (cols : List String) (name : String) (i : ℕ) (hi : i < 6) (hm : name ∈ cols) (hidx : cols.idxOf name = i)
    (R : List (List Cell)) (h : ∀ r ∈ R, SixValues r) :
    ∃ R', castCol ⟨cols, R⟩ name = .ok ⟨cols, R'⟩ ∧ ∀ r ∈ R', SixValues r := by
  have hone : ∀ r, ∃ r', SixValues r → castAt i r = .ok r' ∧ SixValues r' := by
    intro r
    by_cases hr : SixValues r
    · obtain ⟨a, b, c, d, e, f, rest, rfl⟩ := hr
      match i, hi with
      | 0, _ => exact ⟨_, fun _ => ⟨rfl, _, _, _, _, _, _, _, rfl⟩⟩
      | 1, _ => exact ⟨_, fun _ => ⟨rfl, _, _, _, _, _, _, _, rfl⟩⟩
      | 2, _ => exact ⟨_, fun _ => ⟨rfl, _, _, _, _, _, _, _, rfl⟩⟩
      | 3, _ => exact ⟨_, fun _ => ⟨rfl, _, _, _, _, _, _, _, rfl⟩⟩
      | 4, _ => exact ⟨_, fun _ => ⟨rfl, _, _, _, _, _, _, _, rfl⟩⟩
      | 5, _ => exact ⟨_, fun _ => ⟨rfl, _, _, _, _, _, _, _, rfl⟩⟩
    · exact ⟨[], fun h => absurd h hr⟩
  choose g hg using hone
  refine ⟨R.map g, ?_, ?_⟩
  · unfold castCol
    simp only
    rw [if_pos hm, hidx, mapM_ok (g := g) (fun r hr => (hg r (h r hr)).1)]
    rfl
  · intro r hr
    obtain ⟨x, hx, rfl⟩ := List.mem_map.1 hr
    exact (hg x (h x hx)).2

/-- **C183.** When the result tables of the photos can be read one by one, the table of the analysis is made exactly if all of them
have as many columns as that of the first photo; otherwise pandas raises `ValueError`. -/
theorem C183_columns (w : HdfWorld) (ch n : ℕ) (hcount : w.count w.cwd = .ok (n : ℤ)) (hn : 0 < n) (hw : w.cache = none)
    (t : ℕ → List (ℕ × List ℚ)) (width : ℕ → ℕ) (hwid : width 1 = 3 ∨ width 1 = 16) (c : Option (List (ℕ × List ℚ × ℚ × ℚ)))
    (htab : ∀ i, 1 ≤ i → i ≤ n → w.csv w.cwd ch i = some (asTable (t i)) ∧ GoodTable (t i) (width i) ∧ GoodCoords c (t i))
    (hc : w.coord w.cwd = c.map asCoord) (hc2 : ∀ c', c = some c' → 2 ≤ c'.length ∧ ∃ m, ∀ r ∈ c', r.2.1.length = m) :
    ((∀ i, 1 ≤ i → i ≤ n → width i = width 1) → ∃ f, (newFrame w ch).1 = .ok f) ∧
    ((∃ i, 1 ≤ i ∧ i ≤ n ∧ width i ≠ width 1) → (newFrame w ch).1 = .error .valueError) := by
  have hcols : (columnNames (width 1 + 2) ++ ["width", "height"]).length = width 1 + 5 := by
    rcases hwid with h | h <;> rw [h] <;> decide
  have hframe : (newFrame w ch).1 = buildFrame (w.csv w.cwd ch) (c.map fun c => c.map fun r => (r.1, r.2.2))
      (columnNames (width 1 + 2) ++ ["width", "height"]) n := by
    unfold newFrame
    obtain ⟨t1, t2, _⟩ := htab 1 le_rfl hn
    rw [t1, shape_of (t 1) (width 1) t2, hcount]
    simp only
    rw [if_neg (by omega), coordinatesOf_fresh w c hw hc hc2]
    simp only [Int.toNat_natCast]
  rw [hframe]
  constructor
  · intro hall
    obtain ⟨rows, e1, e2⟩ := loadAll_ok (w.csv w.cwd ch) t c n (width 1) _ hcols (fun i h1 h2 => by
      have := htab i h1 h2
      rw [hall i h1 h2] at this
      exact this)
    unfold buildFrame
    rw [e1]
    simp only [bind, Except.bind]
    rw [if_neg (by omega)]
    have hrow : ∀ r ∈ ((List.range n).map fun (i : ℕ) => rows (i + 1)).flatten, SixValues r := by
      intro r hr
      obtain ⟨p, q, i, j, v, x, y, h1, h2, h3, rfl⟩ := rows_shape t c n rows e2 r hr
      have hv : 4 ≤ v.length := by
        have := (htab i h1 h2).2.1.width (j, v) h3
        rw [hall i h1 h2] at this
        simp only at this
        omega
      match v, hv with
      | a :: b :: d :: e :: rest, _ => exact ⟨_, _, _, _, _, _, _, rfl⟩
    generalize ((List.range n).map fun (i : ℕ) => rows (i + 1)).flatten = R at hrow ⊢
    obtain ⟨R0, c0, h0⟩ := castCol_six (columnNames (width 1 + 2) ++ ["width", "height"]) "img_id" 0 (by omega)
      (by rcases hwid with h | h <;> rw [h] <;> decide) (by rcases hwid with h | h <;> rw [h] <;> decide) R hrow
    obtain ⟨R1, c1, h1⟩ := castCol_six (columnNames (width 1 + 2) ++ ["width", "height"]) "led_id" 1 (by omega)
      (by rcases hwid with h | h <;> rw [h] <;> decide) (by rcases hwid with h | h <;> rw [h] <;> decide) R0 h0
    obtain ⟨R2, c2, h2⟩ := castCol_six (columnNames (width 1 + 2) ++ ["width", "height"]) "led_array_id" 2 (by omega)
      (by rcases hwid with h | h <;> rw [h] <;> decide) (by rcases hwid with h | h <;> rw [h] <;> decide) R1 h1
    obtain ⟨R3, c3, h3⟩ := castCol_six (columnNames (width 1 + 2) ++ ["width", "height"]) "max_col_val" 5 (by omega)
      (by rcases hwid with h | h <;> rw [h] <;> decide) (by rcases hwid with h | h <;> rw [h] <;> decide) R2 h2
    obtain ⟨R4, c4, _⟩ := castCol_six (columnNames (width 1 + 2) ++ ["width", "height"]) "sum_col_val" 3 (by omega)
      (by rcases hwid with h | h <;> rw [h] <;> decide) (by rcases hwid with h | h <;> rw [h] <;> decide) R3 h3
    exact ⟨⟨columnNames (width 1 + 2) ++ ["width", "height"], R4⟩, by
      simp only [List.foldlM_cons, List.foldlM_nil, c0, c1, c2, c3, c4, bind, Except.bind]
      rfl⟩
  · rintro ⟨i, h1, h2, hi⟩
    unfold buildFrame
    have herr : ((List.range n).mapM fun (k : ℕ) => loadImage (w.csv w.cwd ch (k + 1)) (c.map fun c => c.map fun r => (r.1, r.2.2))
        (columnNames (width 1 + 2) ++ ["width", "height"]) (k + 1)) = .error .valueError := by
      refine mapM_one_error (fun k hk => ?_) ⟨i - 1, List.mem_range.2 (by omega), ?_⟩
      · rw [List.mem_range] at hk
        obtain ⟨a, b, d⟩ := htab (k + 1) (by omega) (by omega)
        rw [a]
        by_cases hwk : width (k + 1) = width 1
        · obtain ⟨rows, hr, _⟩ := loadImage_ok (t (k + 1)) _ b c d (columnNames (width 1 + 2) ++ ["width", "height"]) (by rw [hcols, hwk]) (k + 1)
          exact .inl ⟨rows, hr⟩
        · exact .inr (loadImage_width (t (k + 1)) _ b c d _ (by rw [hcols]; omega) (k + 1))
      · have : i - 1 + 1 = i := by omega
        rw [this]
        obtain ⟨a, b, d⟩ := htab i h1 h2
        rw [a]
        exact loadImage_width (t i) _ b c d _ (by rw [hcols]; omega) i
    rw [herr]
    rfl

/-! ### Result files with and without fits -/

/-- The fit values of a run, for those photos that are fitted. -/
def fitOf (fitv : ℕ → ℕ → FitValues) (b : Bool) (i : ℕ) : Option (ℕ → FitValues) := if b then some (fitv i) else none

theorem ledData_fit (img : Image ℚ) (areas : List (ℤ × ℤ)) (R : ℕ) (b : Bool) (id : ℕ) (m : Measured ℚ)
    (h : ledData img areas R b id = .ok m) : ledData img areas R false id = .ok m := by
  cases b with
  | false => exact h
  | true =>
    unfold ledData at h ⊢
    split at h
    · cases h
    · simp only [if_true] at h
      split at h
      · cases h
      · simpa using h

/-- The result file of a photo can be read; with fits it has more columns. -/
theorem step3_table (infos : List InfoRow) (hi : GoodInfos infos) (root : Str) (hroot : '\n' ∉ root) (ch : ℕ) (areas : List (ℤ × ℤ))
    (R skip : ℕ) (arrays : List (List ℕ)) (hnodup : (ledsOf skip arrays).Nodup) (htwo : 2 ≤ (ledsOf skip arrays).length) (img : Image ℚ)
    (hp : GoodPhoto img areas R skip arrays) (fitv : ℕ → ℕ → FitValues) (hx : ∀ i led, 0 ≤ (fitv i led).cx) (b : Bool) (k : ℕ)
    (hk : k < infos.length) (text : Str)
    (h : step3Text (infoFile infos) root ch areas R skip arrays img (fitOf fitv b (k + 1)) (natStr (k + 1)) = .ok text) :
    ∃ t : List (ℕ × List ℚ), loadNumbers text = .ok (asTable t) ∧ t.map (·.1) = ledsOf skip arrays ∧ GoodTable t (if b then 16 else 3) := by
  obtain ⟨l1, l2⟩ := hi.line infos[k] (List.getElem_mem hk)
  unfold step3Text at h
  cases hrows : imageRows img areas R (fitOf fitv b (k + 1)).isSome skip arrays with
  | error e => rw [hrows] at h; cases h
  | ok rows =>
    rw [hrows] at h
    simp only [bind, Except.bind] at h
    rw [resultFile_good infos hi root k hk] at h
    have hids := imageRowsFrom_ids img areas R _ skip arrays 0 rows hrows
    have hlen : rows.length = (ledsOf skip arrays).length := by rw [← hids, List.length_map]
    cases b with
    | false =>
      refine ⟨rows.map readValues, loadNumbers_result _ _ _ _ rows hroot l1 l2 text h, ?_, ?_, ?_, ?_⟩
      · rw [← hids, List.map_map]; rfl
      · rw [List.length_map]; omega
      · rw [List.map_map]
        have : rows.map ((·.1) ∘ readValues) = ledsOf skip arrays := by rw [← hids]; rfl
        rw [this]; exact hnodup
      · intro r hr
        obtain ⟨x, _, rfl⟩ := List.mem_map.1 hr
        rfl
    | true =>
      have hmax : ∀ r ∈ rows, ∃ m : ℕ, r.2.2.max = m := by
        intro r hr
        have hled : r.1 ∈ ledsOf skip arrays := by rw [← hids]; exact List.mem_map.2 ⟨r, hr, rfl⟩
        obtain ⟨_, _, _, _, hm, _⟩ := ledData_nat img areas R skip arrays hp r.1 hled r.2.2
          (ledData_fit _ _ _ _ _ _ ((C27_rows img areas R _ skip arrays rows hrows).2.2 r hr))
        exact hm
      have hload := C102_values_partial root infos[k].name ch infos[k].expTime (fitv (k + 1)) rows hroot l1 l2 text h hmax
        (fun r _ => hx _ _)
      refine ⟨rows.map fun r => (r.1, (fitRow (fitv (k + 1)) r).tail), ?_, ?_, ?_, ?_, ?_⟩
      · rw [hload]
        unfold asTable
        rw [List.map_map]
        congr 1
      · rw [← hids, List.map_map]; rfl
      · rw [List.length_map]; omega
      · rw [List.map_map]
        have : rows.map ((·.1) ∘ fun r => (r.1, (fitRow (fitv (k + 1)) r).tail)) = ledsOf skip arrays := by rw [← hids]; rfl
        rw [this]; exact hnodup
      · intro r hr
        obtain ⟨x, _, rfl⟩ := List.mem_map.1 hr
        rfl

/-- What is needed to load the results of a channel: a program that just started, `n` photos in the configuration and a coordinate
file that is missing or has all LEDs. -/
structure LoadReady (w : HdfWorld) (n : ℕ) (skip : ℕ) (arrays : List (List ℕ)) (c : Option (List (ℕ × List ℚ × ℚ × ℚ))) : Prop where
  count : w.count w.cwd = .ok (n : ℤ)
  pos : 0 < n
  fresh : w.cache = none
  coords : w.coord w.cwd = c.map asCoord
  coords2 : ∀ c', c = some c' → 2 ≤ c'.length ∧ ∃ m, ∀ r ∈ c', r.2.1.length = m
  all : ∀ c', c = some c' → (c'.map (·.1)).Pairwise (· < ·) ∧ ∀ i ∈ ledsOf skip arrays, i ∈ c'.map (·.1)

/-- What is needed to measure the photos. -/
structure MeasureReady (infos : List InfoRow) (n : ℕ) (root : Str) (areas : List (ℤ × ℤ)) (R skip : ℕ) (arrays : List (List ℕ))
    (img : ℕ → Image ℚ) (fitv : ℕ → ℕ → FitValues) : Prop where
  listed : n ≤ infos.length
  table : GoodInfos infos
  line : '\n' ∉ root
  nodup : (ledsOf skip arrays).Nodup
  two : 2 ≤ (ledsOf skip arrays).length
  photo : ∀ i, GoodPhoto (img i) areas R skip arrays
  centre : ∀ i led, 0 ≤ (fitv i led).cx

/-- **C183.** Result files of a channel of which some were written with fits and some without: they can be loaded exactly if all or
none were written with fits. -/
theorem C183_files (w : HdfWorld) (ch n : ℕ) (infos : List InfoRow) (root : Str) (areas : List (ℤ × ℤ)) (R skip : ℕ)
    (arrays : List (List ℕ)) (img : ℕ → Image ℚ) (fitv : ℕ → ℕ → FitValues) (c : Option (List (ℕ × List ℚ × ℚ × ℚ)))
    (hl : LoadReady w n skip arrays c) (hm : MeasureReady infos n root areas R skip arrays img fitv) (fitted : ℕ → Bool)
    (files : ℕ → Option Str) (hf : ∀ i, 1 ≤ i → i ≤ n → ∃ text,
      step3Text (infoFile infos) root ch areas R skip arrays (img i) (fitOf fitv (fitted i) i) (natStr i) = .ok text ∧ files i = some text) :
    ((∀ i, 1 ≤ i → i ≤ n → fitted i = fitted 1) → ∃ f, textFrame w ch files = .ok f) ∧
    ((∃ i, 1 ≤ i ∧ i ≤ n ∧ fitted i ≠ fitted 1) → textFrame w ch files = .error .valueError) := by
  have key : ∀ i, ∃ t : List (ℕ × List ℚ), 1 ≤ i → i ≤ n → tableOfText (files i) = .ok (some (asTable t)) ∧
      GoodTable t (if fitted i then 16 else 3) ∧ GoodCoords c t := by
    intro i
    by_cases h : 1 ≤ i ∧ i ≤ n
    · obtain ⟨k, rfl⟩ : ∃ k, i = k + 1 := ⟨i - 1, by omega⟩
      obtain ⟨text, h1, h2⟩ := hf _ h.1 h.2
      obtain ⟨t, t1, t2, t3⟩ := step3_table infos hm.table root hm.line ch areas R skip arrays hm.nodup hm.two (img (k + 1)) (hm.photo _)
        fitv hm.centre (fitted (k + 1)) k (by have := hm.listed; omega) text h1
      refine ⟨t, fun _ _ => ⟨?_, t3, ?_⟩⟩
      · rw [h2]
        unfold tableOfText
        simp only
        rw [t1]
        rfl
      · intro c' hc'
        refine ⟨(hl.all c' hc').1, fun r hr => (hl.all c' hc').2 r.1 ?_⟩
        rw [← t2]
        exact List.mem_map.2 ⟨r, hr, rfl⟩
    · exact ⟨[], fun a b => absurd ⟨a, b⟩ h⟩
  choose t ht using key
  have htab : ((List.range n).mapM fun (k : ℕ) => tableOfText (files (k + 1))) =
      (.ok ((List.range n).map fun (k : ℕ) => some (asTable (t (k + 1)))) : Except PyErr _) :=
    mapM_ok fun k hk => (ht (k + 1) (by omega) (by have := List.mem_range.1 hk; omega)).1
  have hframe : textFrame w ch files = (newFrame { w with csv := fun _ _ i =>
      ((((List.range n).map fun (k : ℕ) => some (asTable (t (k + 1))))[i - 1]?).getD none) } ch).1 := by
    unfold textFrame
    rw [hl.count]
    simp only [bind, Except.bind, Int.toNat_natCast]
    rw [htab]
  have hall := C183_columns { w with csv := fun _ _ i =>
      ((((List.range n).map fun (k : ℕ) => some (asTable (t (k + 1))))[i - 1]?).getD none) } ch n hl.count hl.pos hl.fresh t
    (fun i => if fitted i then 16 else 3) (by cases fitted 1 <;> simp) c (fun i h1 h2 => by
      refine ⟨?_, (ht i h1 h2).2⟩
      simp only
      rw [List.getElem?_map, List.getElem?_range (by omega)]
      have : i - 1 + 1 = i := by omega
      simp [this]) hl.coords hl.coords2
  rw [hframe]
  refine ⟨fun h => hall.1 fun i h1 h2 => by simp only [h i h1 h2], fun ⟨i, h1, h2, h3⟩ => hall.2 ⟨i, h1, h2, ?_⟩⟩
  cases hfi : fitted i <;> cases hf1 : fitted 1 <;> simp_all

/-! ### The restart -/

/-- Step 3 of the photos of a channel, as it is scheduled: header and lines of each result file. -/
def photoEnv (infos : List InfoRow) (root : Str) (areas : List (ℤ × ℤ)) (R skip : ℕ) (arrays : List (List ℕ)) (img : ℕ → Image ℚ)
    (fitv : ℕ → ℕ → FitValues) (logs : ℕ → ℕ → List Str) : Step3Env where
  header b c i := match infos[i - 1]? with
    | some r => headerText root r.name c r.expTime b
    | none => []
  rows b _ i := (imageRows (img i) areas R b skip arrays).map fun rows => rows.map (resultLine (fitOf fitv b i))
  logs := logs

theorem photoEnv_text (infos : List InfoRow) (n : ℕ) (root : Str) (areas : List (ℤ × ℤ)) (R skip : ℕ) (arrays : List (List ℕ))
    (img : ℕ → Image ℚ) (fitv : ℕ → ℕ → FitValues) (logs : ℕ → ℕ → List Str)
    (hm : MeasureReady infos n root areas R skip arrays img fitv) (b : Bool) (ch i : ℕ) (h1 : 1 ≤ i) (h2 : i ≤ n)
    (hrows : ∃ rows, imageRows (img i) areas R b skip arrays = .ok rows) :
    step3Text (infoFile infos) root ch areas R skip arrays (img i) (fitOf fitv b i) (natStr i) =
      .ok (fileText (photoEnv infos root areas R skip arrays img fitv logs) b ch i) ∧
    ∃ r rows, (photoEnv infos root areas R skip arrays img fitv logs).rows b ch i = .ok (r :: rows) := by
  obtain ⟨k, rfl⟩ : ∃ k, i = k + 1 := ⟨i - 1, by omega⟩
  have hk : k < infos.length := by have := hm.listed; omega
  obtain ⟨rows, hrows⟩ := hrows
  have hsome : (fitOf fitv b (k + 1)).isSome = b := by cases b <;> rfl
  have hne : rows ≠ [] := by
    intro h
    have := imageRowsFrom_ids (img (k + 1)) areas R b skip arrays 0 rows hrows
    rw [h] at this
    have h2 := hm.two
    rw [← this] at h2
    simp at h2
  obtain ⟨r, rs, rfl⟩ := List.exists_cons_of_ne_nil hne
  constructor
  · unfold step3Text
    rw [hsome, hrows]
    simp only [bind, Except.bind]
    rw [resultFile_good infos hm.table root k hk]
    unfold resultText fileText photoEnv
    simp only [hsome, Nat.add_sub_cancel, List.getElem?_eq_getElem hk, hrows, Except.map]
  · exact ⟨resultLine (fitOf fitv b (k + 1)) r, rs.map (resultLine (fitOf fitv b (k + 1))), by
      unfold photoEnv
      simp only [hrows, Except.map, List.map_cons]⟩

/-- The photos 1, …, n. -/
def photoIds (n : ℕ) : List ℕ := (List.range n).map (· + 1)

theorem mem_photoIds {n i : ℕ} : i ∈ photoIds n ↔ 1 ≤ i ∧ i ≤ n := by
  unfold photoIds
  rw [List.mem_map]
  constructor
  · rintro ⟨k, hk, rfl⟩
    have := List.mem_range.1 hk
    omega
  · rintro ⟨h1, h2⟩
    exact ⟨i - 1, List.mem_range.2 (by omega), by omega⟩

theorem photoIds_nodup (n : ℕ) : (photoIds n).Nodup := List.nodup_range.map fun _ _ h => Nat.succ.inj h

/-- Restarts, one after another. -/
inductive Restarts (env : Step3Env) (ids channels : List ℕ) : FileStore → FileStore → Prop
  | one {k s s'} : RestartRun env ids channels k s s' → Restarts env ids channels s s'
  | more {k s s' s''} : Restarts env ids channels s s' → RestartRun env ids channels k s' s'' → Restarts env ids channels s s''

section
variable (infos : List InfoRow) (n : ℕ) (root : Str) (areas : List (ℤ × ℤ)) (R skip : ℕ) (arrays : List (List ℕ)) (img : ℕ → Image ℚ)
  (fitv : ℕ → ℕ → FitValues) (logs : ℕ → ℕ → List Str) (hm : MeasureReady infos n root areas R skip arrays img fitv)

include hm in
/-- **C183.** What any number of restarts leave in the directory of a channel: photos that had a result file keep it, all others get
one without fits. Further restarts change nothing. -/
theorem C183_restarts (ch : ℕ) (s s' : FileStore)
    (hs : ∀ i, 1 ≤ i → i ≤ n → i ∈ analysedIds s ch → s.get (resultPath ch i) ≠ none)
    (hr : Restarts (photoEnv infos root areas R skip arrays img fitv logs) (photoIds n) [ch] s s') (i : ℕ) (h1 : 1 ≤ i) (h2 : i ≤ n) :
    s'.get (resultPath ch i) = some ((s.get (resultPath ch i)).getD
      (fileText (photoEnv infos root areas R skip arrays img fitv logs) false ch i)) := by
  have hok : ∀ i ∈ photoIds n, ∀ c ∈ [ch], ∃ r rows, (photoEnv infos root areas R skip arrays img fitv logs).rows false c i = .ok (r :: rows) := by
    intro i hi c _
    obtain ⟨a, b⟩ := mem_photoIds.1 hi
    exact (photoEnv_text infos n root areas R skip arrays img fitv logs hm false c i a b
      (goodPhoto_rows (img i) areas R skip arrays (hm.photo i))).2
  induction hr with
  | one h =>
    rw [C29_restart_effect _ _ (photoIds_nodup n) ch [] hok _ _ _ h ch (by simp) i (mem_photoIds.2 ⟨h1, h2⟩)]
    split
    · rename_i k0 s _ hmem
      cases hg : s.get (resultPath ch i) with
      | none => exact absurd hg (hs i h1 h2 hmem)
      | some x => rfl
    · rename_i k0 s _ hmem
      cases hg : s.get (resultPath ch i) with
      | none => rfl
      | some x => exact absurd (analysed_of_file s ch i (by rw [hg]; simp)) hmem
  | more _ h ih =>
    have ih := ih hs
    rw [C29_restart_effect _ _ (photoIds_nodup n) ch [] hok _ _ _ h ch (by simp) i (mem_photoIds.2 ⟨h1, h2⟩), if_pos, ih]
    exact analysed_of_file _ ch i (by rw [ih]; simp)

include hm in
/-- **C183, exact law.** A run of step 3 with fitting was interrupted and left result files of some photos; restarts completed it. The
results can be loaded exactly if the interrupted run had finished all photos or none. -/
theorem C183_iff (w : HdfWorld) (ch : ℕ) (c : Option (List (ℕ × List ℚ × ℚ × ℚ))) (hl : LoadReady w n skip arrays c)
    (hfit : ∀ i, 1 ≤ i → i ≤ n → ∃ rows, imageRows (img i) areas R true skip arrays = .ok rows) (s s' : FileStore)
    (hs : ∀ i, 1 ≤ i → i ≤ n → i ∈ analysedIds s ch →
      s.get (resultPath ch i) = some (fileText (photoEnv infos root areas R skip arrays img fitv logs) true ch i))
    (hr : Restarts (photoEnv infos root areas R skip arrays img fitv logs) (photoIds n) [ch] s s') :
    ((∃ f, textFrame w ch (fun i => s'.get (resultPath ch i)) = .ok f) ↔
      (∀ i, 1 ≤ i → i ≤ n → s.get (resultPath ch i) ≠ none) ∨ ∀ i, 1 ≤ i → i ≤ n → s.get (resultPath ch i) = none) ∧
    ∀ i j, 1 ≤ i → i ≤ n → 1 ≤ j → j ≤ n → s.get (resultPath ch i) ≠ none → s.get (resultPath ch j) = none →
      textFrame w ch (fun i => s'.get (resultPath ch i)) = .error .valueError := by
  have hafter := C183_restarts infos n root areas R skip arrays img fitv logs hm ch s s'
    (fun i h1 h2 h => by rw [hs i h1 h2 h]; simp) hr
  have hfiles := C183_files w ch n infos root areas R skip arrays img fitv c hl hm (fun i => (s.get (resultPath ch i)).isSome)
    (fun i => s'.get (resultPath ch i)) (fun i h1 h2 => by
      cases hg : s.get (resultPath ch i) with
      | none =>
        refine ⟨_, (photoEnv_text infos n root areas R skip arrays img fitv logs hm false ch i h1 h2
          (goodPhoto_rows (img i) areas R skip arrays (hm.photo i))).1, ?_⟩
        rw [hafter i h1 h2, hg]
        rfl
      | some x =>
        refine ⟨_, (photoEnv_text infos n root areas R skip arrays img fitv logs hm true ch i h1 h2 (hfit i h1 h2)).1, ?_⟩
        rw [hafter i h1 h2, hs i h1 h2 (analysed_of_file s ch i (by rw [hg]; simp))]
        rfl)
  have hbad : ∀ i j, 1 ≤ i → i ≤ n → 1 ≤ j → j ≤ n → s.get (resultPath ch i) ≠ none → s.get (resultPath ch j) = none →
      textFrame w ch (fun i => s'.get (resultPath ch i)) = .error .valueError := by
    intro i j i1 i2 j1 j2 hi hj
    apply hfiles.2
    have hi' : (s.get (resultPath ch i)).isSome = true := Option.isSome_iff_ne_none.2 hi
    have hj' : (s.get (resultPath ch j)).isSome = false := by rw [hj]; rfl
    cases h1 : (s.get (resultPath ch 1)).isSome with
    | true => exact ⟨j, j1, j2, by rw [hj']; simp⟩
    | false => exact ⟨i, i1, i2, by rw [hi']; simp⟩
  refine ⟨⟨?_, ?_⟩, hbad⟩
  · rintro ⟨f, hf⟩
    by_contra hno
    push Not at hno
    obtain ⟨⟨j, j1, j2, hj⟩, i, i1, i2, hi⟩ := hno
    rw [hbad i j i1 i2 j1 j2 hi hj] at hf
    cases hf
  · rintro (h | h)
    · refine hfiles.1 fun i h1 h2 => ?_
      rw [Option.isSome_iff_ne_none.2 (h i h1 h2), Option.isSome_iff_ne_none.2 (h 1 le_rfl hl.pos)]
    · refine hfiles.1 fun i h1 h2 => ?_
      rw [h i h1 h2, h 1 le_rfl hl.pos]

include hm in
/-- **C183 refuted**: step 3 with fitting can be stopped after the first of several photos, so that no number of restarts, with any
number of processes, gives results that can be loaded. -/
theorem C183_false (w : HdfWorld) (ch : ℕ) (c : Option (List (ℕ × List ℚ × ℚ × ℚ))) (hl : LoadReady w n skip arrays c) (h2 : 2 ≤ n)
    (hfit : ∀ i, 1 ≤ i → i ≤ n → ∃ rows, imageRows (img i) areas R true skip arrays = .ok rows) :
    ∃ (tr tr' : List FileOp),
      PoolRun 1 ((photoIds n).map fun i => (imgTask (photoEnv infos root areas R skip arrays img fitv logs) true [ch] i).1) [] tr ∧ tr' <+: tr ∧
      (∀ i, 1 ≤ i → i ≤ n → (FileStore.exec [] tr').get (resultPath ch i) =
        if i = 1 then some (fileText (photoEnv infos root areas R skip arrays img fitv logs) true ch 1) else none) ∧
      (∃ s', Restarts (photoEnv infos root areas R skip arrays img fitv logs) (photoIds n) [ch] (FileStore.exec [] tr') s') ∧
      ∀ s', Restarts (photoEnv infos root areas R skip arrays img fitv logs) (photoIds n) [ch] (FileStore.exec [] tr') s' →
        textFrame w ch (fun i => s'.get (resultPath ch i)) = .error .valueError := by
  have hsplit : photoIds n = 1 :: (photoIds n).tail := by
    obtain ⟨m, rfl⟩ : ∃ m, n = m + 1 := ⟨n - 1, by omega⟩
    unfold photoIds
    rw [List.range_succ_eq_map]
    rfl
  have hstate : ∀ i, (FileStore.exec [] (imgTask (photoEnv infos root areas R skip arrays img fitv logs) true [ch] 1).1).get (resultPath ch i) =
      if i = 1 then some (fileText (photoEnv infos root areas R skip arrays img fitv logs) true ch 1) else none := by
    intro i
    rw [FileStore.get_exec]
    have hok : (imgTask (photoEnv infos root areas R skip arrays img fitv logs) true [ch] 1).2 = true :=
      (imgTask_ok_iff _ _ _ _).2 fun c _ => (photoEnv_text infos n root areas R skip arrays img fitv logs hm true c 1 le_rfl (by omega)
        (hfit 1 le_rfl (by omega))).2
    by_cases hi : i = 1
    · subst hi
      rw [if_pos rfl, imgTask_effect _ _ _ _ _ hok, if_pos (by simp)]
    · rw [if_neg hi, List.filter_eq_nil_iff.2]
      · rfl
      · intro o ho h
        rcases imgTask_paths _ true [ch] 1 o ho with ⟨_, hp⟩ | ⟨c', _, hp⟩
        · exact resultPath_ne_log ch i ((of_decide_eq_true h).symm.trans hp)
        · exact hi (resultPath_injective ((of_decide_eq_true h).symm.trans hp)).2
  have hana : ∀ i, i ∈ analysedIds (FileStore.exec [] (imgTask (photoEnv infos root areas R skip arrays img fitv logs) true [ch] 1).1) ch → i = 1 := by
    intro i hmem
    unfold analysedIds at hmem
    rw [List.mem_filterMap] at hmem
    obtain ⟨name, hname, hid⟩ := hmem
    unfold listDir at hname
    rw [List.mem_map] at hname
    obtain ⟨e, he, rfl⟩ := hname
    rw [List.mem_filter] at he
    rcases exec_paths _ [] e he.1 with h | ⟨o, ho, heo⟩
    · cases h
    · rcases imgTask_paths _ true [ch] 1 o ho with ⟨_, hp⟩ | ⟨c', hc', hp⟩
      · exfalso
        have hpre := he.2
        rw [heo, hp, Bool.and_eq_true] at hpre
        obtain ⟨x, hx⟩ := List.isPrefixOf_iff_prefix.1 hpre.1
        have := congrArg List.head? hx
        unfold channelDir at this
        rw [List.append_assoc, List.append_assoc, List.head?_append_of_ne_nil _ (by decide)] at this
        exact absurd this (by decide)
      · rw [List.mem_singleton] at hc'
        subst hc'
        rw [heo, hp, resultPath, List.drop_left, searchResultName_resultName] at hid
        exact (Option.some.inj hid).symm
  refine ⟨_, (imgTask (photoEnv infos root areas R skip arrays img fitv logs) true [ch] 1).1, poolRun_exists (by omega) _, ?_, fun i _ _ => hstate i, ?_, ?_⟩
  · rw [hsplit, List.map_cons, List.flatten_cons]
    exact List.prefix_append _ _
  · have hids : restartIds (FileStore.exec [] (imgTask (photoEnv infos root areas R skip arrays img fitv logs) true [ch] 1).1) (photoIds n) [ch] =
        .ok ((photoIds n).filter fun i => i ∉ analysedIds
          (FileStore.exec [] (imgTask (photoEnv infos root areas R skip arrays img fitv logs) true [ch] 1).1) ch) := by
      unfold restartIds notAnalysed
      exact if_pos fun i hi => mem_photoIds.2 ⟨by rw [hana i hi], by rw [hana i hi]; omega⟩
    exact ⟨_, .one (k := 1) ⟨_, _, _, hids, List.Perm.refl _, poolRun_exists (by omega) _, rfl⟩⟩
  · intro s' hr
    refine (C183_iff infos n root areas R skip arrays img fitv logs hm w ch c hl hfit _ s' (fun i h1 h3 hmem => ?_) hr).2 1 2 le_rfl (by omega)
      (by omega) h2 (by rw [hstate, if_pos rfl]; simp) (by rw [hstate, if_neg (by omega)])
    have := hana i hmem
    subst this
    rw [hstate, if_pos rfl]

include hm in
/-- **C183.** What helps: a complete run of step 3, with or without fitting, with any number of processes, whatever the files were. -/
theorem C183_remedy (w : HdfWorld) (ch : ℕ) (c : Option (List (ℕ × List ℚ × ℚ × ℚ))) (hl : LoadReady w n skip arrays c) (b : Bool)
    (hfit : ∀ i, 1 ≤ i → i ≤ n → ∃ rows, imageRows (img i) areas R b skip arrays = .ok rows) (s : FileStore) (k : ℕ) (tr : List FileOp)
    (hr : PoolRun k ((photoIds n).map fun i => (imgTask (photoEnv infos root areas R skip arrays img fitv logs) b [ch] i).1) [] tr) :
    ∃ f, textFrame w ch (fun i => (s.exec tr).get (resultPath ch i)) = .ok f := by
  have henv := fun i (h1 : 1 ≤ i) (h2 : i ≤ n) =>
    photoEnv_text infos n root areas R skip arrays img fitv logs hm b ch i h1 h2 (hfit i h1 h2)
  have hall := (C28_schedule_independent_partial _ b [ch] (photoIds n) (photoIds_nodup n) (fun i hi c' hc' => by
    obtain ⟨h1, h2⟩ := mem_photoIds.1 hi
    rw [List.mem_singleton.1 hc']
    exact (henv i h1 h2).2) k tr hr s).1
  refine (C183_files w ch n infos root areas R skip arrays img fitv c hl hm (fun _ => b) _ (fun i h1 h2 => ?_)).1 fun _ _ _ => rfl
  exact ⟨_, (henv i h1 h2).1, hall ch (by simp) i (mem_photoIds.2 ⟨h1, h2⟩)⟩

end

/-! ### Example -/

/-- All conditions can be met: the photos of the strip, with fits. -/
theorem restart_example : MeasureReady stripInfos 2 "exp".toList [(2, 2), (6, 2)] 1 0 [[0], [1]] (fun _ => stripPhoto) (fun _ _ => goodFit) ∧
    LoadReady stripDir 2 0 [[0], [1]] none ∧ ∃ rows, imageRows stripPhoto [(2, 2), (6, 2)] 1 true 0 [[0], [1]] = .ok rows := by
  refine ⟨⟨by decide, ?_, by decide, by decide, by decide, ?_, fun _ _ => by decide⟩, ⟨rfl, by decide, rfl, rfl, ?_, ?_⟩, ?_⟩
  · refine ⟨?_, by unfold CsvSafe; decide, by decide⟩
    intro k hk
    match k, hk with
    | 0, _ => rfl
    | 1, _ => rfl
  · intro _
    refine ⟨by decide, ?_, ?_⟩
    · intro i hi
      have : i = 0 ∨ i = 1 := by simpa [ledsOf] using hi
      rcases this with rfl | rfl
      · exact ⟨2, 2, by decide, by decide, by decide, by decide, by decide⟩
      · exact ⟨6, 2, by decide, by decide, by decide, by decide, by decide⟩
    · intro i j _ _
      simp only [stripPhoto]
      split
      · exact ⟨60001, by norm_num⟩
      · split
        · exact ⟨i + j, by push_cast; rfl⟩
        · exact ⟨9000, by norm_num⟩
  · intro c' h; cases h
  · intro c' h; cases h
  · exact ⟨_, rfl⟩

/-- The first file with fits, the second without: pandas refuses. -/
example : textFrame stripDir 0 (fun i => (step3Text (infoFile stripInfos) "exp".toList 0 [(2, 2), (6, 2)] 1 0 [[1], [0]] stripPhoto
      (fitOf (fun _ _ => goodFit) (decide (i = 1)) i) (natStr i)).toOption) = .error .valueError := by decide +kernel

/-- The strip: no restart helps after the first photo was finished with fits. -/
example (logs : ℕ → ℕ → List Str) : ∃ s : FileStore, ∀ s', Restarts (photoEnv stripInfos "exp".toList [(2, 2), (6, 2)] 1 0 [[0], [1]]
      (fun _ => stripPhoto) (fun _ _ => goodFit) logs) (photoIds 2) [0] s s' →
    textFrame stripDir 0 (fun i => s'.get (resultPath 0 i)) = .error .valueError := by
  obtain ⟨hm, hl, hrows⟩ := restart_example
  obtain ⟨_, tr, _, _, _, _, h⟩ := C183_false _ _ _ _ _ _ _ _ _ logs hm stripDir 0 none hl le_rfl (fun _ _ _ => hrows)
  exact ⟨_, h⟩

end Ledsa
