import Verif.Model.Argv
import Verif.Props.Cli

/-!
# The words of the command line: documented options (C113), combined letters (C114), misspelled options (C115)
-/

namespace Ledsa

/-! ### C113 -/

/-- What a user can ask for on the command line. -/
inductive Wish
  | prepareImages | step1 | step2 | step3 | step3fast | restart | red | green | blue | rgb | coordinates | analysis | cc | demo | run
  | acceptance | acceptanceDebug
  | config (values : List Str)
  | configAnalysis (values : List Str)
  | ccChannels (first : ℤ) (more : List ℤ)
  | setup (path : Str)
  | nCores (n : ℤ)

/-- The documented spellings of a wish. -/
def Wish.spellings : Wish → List String
  | .prepareImages => ["--prepare_images"]
  | .step1 => ["-s1", "--step_1", "--find_search_areas"]
  | .step2 => ["-s2", "--step_2", "--analyse_positions"]
  | .step3 => ["-s3", "--step_3", "--analyse_photo"]
  | .step3fast => ["-s3_fast", "--step_3_fast", "--analyse_photo_fast"]
  | .restart => ["-re", "--restart"]
  | .red => ["-r", "--red"]
  | .green => ["-g", "--green"]
  | .blue => ["-b", "--blue"]
  | .rgb => ["-rgb", "--rgb"]
  | .coordinates => ["-coord", "--coordinates"]
  | .analysis => ["-a", "--analysis"]
  | .cc => ["--cc", "--color_correction"]
  | .demo => ["-d", "--demo"]
  | .run => ["--run"]
  | .acceptance => ["-atest", "--acceptance_test"]
  | .acceptanceDebug => ["-atest_debug", "--acceptance_test_debug"]
  | .config _ => ["-conf", "--config"]
  | .configAnalysis _ => ["-conf_a", "--config_analysis"]
  | .ccChannels _ _ => ["--cc_channels"]
  | .setup _ => ["--setup"]
  | .nCores _ => ["--n_cores"]

/-- The words after the name of an option. -/
def Wish.values : Wish → List Str
  | .config vs => vs
  | .configAnalysis vs => vs
  | .ccChannels z zs => (z :: zs).map intStr
  | .setup p => [p]
  | .nCores n => [intStr n]
  | _ => []

/-- Given paths and names do not start with a dash. -/
def Wish.plain : Wish → Prop
  | .config vs => ∀ v ∈ vs, v.head? ≠ some '-'
  | .configAnalysis vs => ∀ v ∈ vs, v.head? ≠ some '-'
  | .setup p => p.head? ≠ some '-'
  | _ => True

/-- A wish and how it is written. -/
structure Written where
  wish : Wish
  name : Str
  documented : ∃ s ∈ wish.spellings, name = s.toList
  plain : wish.plain

/-- The words of a command line. -/
def wordsOf (ws : List Written) : List Str := (ws.map (fun w => w.name :: w.wish.values)).flatten

/-- The last of the given values. -/
def lastOf {α : Type} (f : Wish → Option α) (ws : List Written) : Option α := (ws.filterMap (fun w => f w.wish)).getLast?

/-- Whether a flag is asked for. -/
def asked (w : Wish) (ws : List Written) : Prop := ∃ x ∈ ws, x.wish = w

/-- The arguments a user means. -/
structure Means (ws : List Written) (a : CliArgs) : Prop where
  prepareImages : a.prepareImages = true ↔ asked .prepareImages ws
  step1 : a.step1 = true ↔ asked .step1 ws
  step2 : a.step2 = true ↔ asked .step2 ws
  step3 : a.step3 = true ↔ asked .step3 ws
  step3fast : a.step3fast = true ↔ asked .step3fast ws
  restart : a.restart = true ↔ asked .restart ws
  red : a.red = true ↔ asked .red ws
  green : a.green = true ↔ asked .green ws
  blue : a.blue = true ↔ asked .blue ws
  rgb : a.rgb = true ↔ asked .rgb ws
  coordinates : a.coordinates = true ↔ asked .coordinates ws
  analysis : a.analysis = true ↔ asked .analysis ws
  cc : a.cc = true ↔ asked .cc ws
  demo : a.demo = true ↔ asked .demo ws
  run : a.run = true ↔ asked .run ws
  acceptance : a.acceptance = true ↔ asked .acceptance ws
  acceptanceDebug : a.acceptanceDebug = true ↔ asked .acceptanceDebug ws
  config : a.config = lastOf (fun | .config vs => some vs | _ => none) ws
  configAnalysis : a.configAnalysis = true ↔ ∃ vs, asked (.configAnalysis vs) ws
  ccChannels : a.ccChannels = ws.filterMap (fun w => match w.wish with | .ccChannels z zs => some (z :: zs) | _ => none)
  setup : a.setup = lastOf (fun | .setup p => some p | _ => none) ws
  nCores : a.nCores = lastOf (fun | .nCores n => some n | _ => none) ws

/-- The option a wish sets. -/
def Wish.dest : Wish → OptDest
  | .prepareImages => .prepareImages
  | .step1 => .step1
  | .step2 => .step2
  | .step3 => .step3
  | .step3fast => .step3fast
  | .restart => .restart
  | .red => .red
  | .green => .green
  | .blue => .blue
  | .rgb => .rgb
  | .coordinates => .coordinates
  | .analysis => .analysis
  | .cc => .cc
  | .demo => .demo
  | .run => .run
  | .acceptance => .acceptance
  | .acceptanceDebug => .acceptanceDebug
  | .config _ => .config
  | .configAnalysis _ => .configAnalysis
  | .ccChannels _ _ => .ccChannels
  | .setup _ => .setup
  | .nCores _ => .nCores

/-- The arguments after one more wish. -/
def grant (a : CliArgs) (w : Wish) : CliArgs :=
  match w with
  | .config vs => { a with config := some vs }
  | .configAnalysis _ => { a with configAnalysis := true }
  | .ccChannels z zs => { a with ccChannels := a.ccChannels ++ [z :: zs] }
  | .setup p => { a with setup := some p }
  | .nCores n => { a with nCores := some n }
  | w => setFlag w.dest a

theorem classify_documented (w : Wish) (s : String) (h : s ∈ w.spellings) : classify s.toList = .option w.dest s.toList none := by
  cases w <;> simp only [Wish.spellings, List.mem_cons, List.not_mem_nil, or_false] at h <;>
    first
    | (subst h; simp only [Wish.dest]; decide +kernel)
    | (rcases h with h | h <;> subst h <;> simp only [Wish.dest] <;> decide +kernel)
    | (rcases h with h | h | h <;> subst h <;> simp only [Wish.dest] <;> decide +kernel)

theorem classify_plain (v : Str) (h : v.head? ≠ some '-') : classify v = .value := by
  match v, h with
  | [], _ => rfl
  | c :: t, h =>
    have hc : c ≠ '-' := by simpa using h
    unfold classify
    split
    · rename_i heq; simp only [List.cons.injEq] at heq; exact absurd heq.1 hc
    · rfl

theorem optionOf_digit (c : Char) (t : Str) (h : isDigit c = true) : optionOf ('-' :: c :: t) = none := by
  unfold optionOf
  rw [Option.map_eq_none_iff, List.find?_eq_none]
  have hall : ∀ p ∈ declaredOptions, isDigit (p.1.getD 1 '0') = false := by decide +kernel
  intro p hp he
  have := hall p hp
  rw [beq_iff_eq.1 he] at this
  simp [h] at this

theorem splitEq_none {w : Str} (h : '=' ∉ w) : splitEq w = (w, none) := by
  induction w with
  | nil => rfl
  | cons c cs ih =>
    simp only [List.mem_cons, not_or] at h
    unfold splitEq
    rw [if_neg (fun hc => h.1 hc.symm), ih h.2]

theorem abbreviated_digit (c : Char) (t : Str) (h : isDigit c = true) : abbreviated ('-' :: c :: t) = [] := by
  have hc : c ≠ '-' := isDigit_ne h '-' (by decide)
  have hall : ∀ p ∈ declaredOptions, 2 ≤ p.1.length ∧ isDigit (p.1.getD 1 '0') = false := by decide +kernel
  unfold abbreviated
  split
  · rename_i heq; simp only [List.cons.injEq] at heq; exact absurd heq.2.1 hc
  · rename_i c' rest _ heq
    simp only [List.cons.injEq, true_and] at heq
    obtain ⟨rfl, rfl⟩ := heq
    rw [List.filterMap_eq_nil_iff]
    intro p hp
    obtain ⟨hl, hd⟩ := hall p hp
    rw [if_neg, if_neg]
    · intro hpre
      obtain ⟨r, hr⟩ := List.isPrefixOf_iff_prefix.1 hpre
      rw [← hr] at hd
      simp [h] at hd
    · intro he
      rw [he] at hd
      simp [h] at hd
  · rfl

theorem classify_intStr (z : ℤ) : classify (intStr z) = .value := by
  unfold intStr
  split
  · have hd := natStr_isDigit z.natAbs
    have hne := natStr_ne_nil z.natAbs
    revert hd hne
    generalize natStr z.natAbs = t
    intro hd hne
    match t, hd, hne with
    | c :: cs, hd, _ =>
      have hc : isDigit c = true := hd c List.mem_cons_self
      have hc' : c ≠ '-' := isDigit_ne hc '-' (by decide)
      have heq : '=' ∉ '-' :: c :: cs := by
        intro hm
        rcases List.mem_cons.1 hm with h | h
        · revert h; decide
        · exact (isDigit_ne (hd _ h) '=' (by decide)) rfl
      unfold classify
      simp only
      rw [optionOf_digit c cs hc]
      simp only
      rw [if_neg (by simp), if_neg (by simp [hc']), splitEq_none heq, abbreviated_digit c cs hc]
      simp only
      rw [if_pos]
      simp only [isNegNumber, Bool.or_eq_true, Bool.and_eq_true, List.all_eq_true]
      exact Or.inl (Or.inl ⟨by simp, hd⟩)
  · refine classify_plain _ ?_
    intro h
    have hd := natStr_isDigit z.natAbs
    revert h hd
    cases natStr z.natAbs with
    | nil => intro h; simp at h
    | cons c cs =>
      intro h hd
      have := hd c List.mem_cons_self
      simp only [List.head?_cons, Option.some.injEq] at h
      rw [h] at this
      revert this; decide

theorem intWords_intStr (zs : List ℤ) : intWords (zs.map intStr) = .ok zs := by
  induction zs with
  | nil => rfl
  | cons z zs ih => simp only [List.map_cons, intWords, pyInt_intStr, ih]

theorem parse_values (d : OptDest) (vs : List Str) (hv : ∀ v ∈ vs, classify v = .value) (rest : List Str) (a : CliArgs) :
    ∀ ws : List Str, (d.kind = .one → ws.length + vs.length ≤ 1) → d.kind ≠ .flag →
      parseWords (vs ++ rest) (some (d, ws)) a = parseWords rest (some (d, ws ++ vs)) a := by
  induction vs with
  | nil => intro ws _ _; simp
  | cons v vs ih =>
    intro ws h1 hf
    rw [List.cons_append, parseWords, hv v List.mem_cons_self]
    simp only
    have ht : takesMore d ws = true := by
      unfold takesMore
      cases hk : d.kind with
      | flag => exact absurd hk hf
      | star => rfl
      | plus => rfl
      | one =>
        have := h1 hk
        simp only [List.length_cons] at this
        have : ws.length = 0 := by omega
        simp [List.length_eq_zero_iff.1 this]
    rw [if_pos ht, ih (fun x hx => hv x (List.mem_cons_of_mem _ hx)) (ws ++ [v]) _ hf, List.append_assoc, List.singleton_append]
    intro hk
    have := h1 hk
    simp only [List.length_cons, List.length_append, List.length_nil] at *
    omega

/-- The words of a wish are taken for values. -/
theorem values_classified (w : Wish) (hp : w.plain) : ∀ v ∈ w.values, classify v = .value := by
  cases w <;> simp only [Wish.values, List.not_mem_nil, false_imp_iff, implies_true]
  · exact fun v hv => classify_plain v (hp v hv)
  · exact fun v hv => classify_plain v (hp v hv)
  · intro v hv
    obtain ⟨z, -, rfl⟩ := List.mem_map.1 hv
    exact classify_intStr z
  · intro v hv
    rw [List.mem_singleton.1 hv]
    exact classify_plain _ hp
  · intro v hv
    rw [List.mem_singleton.1 hv]
    exact classify_intStr _

theorem close_wish (w : Wish) (hf : w.dest.kind ≠ .flag) (a : CliArgs) : closeOption w.dest w.values a = .ok (grant a w) := by
  cases w <;> first | exact absurd rfl hf | skip
  · rfl
  · rfl
  · rename_i z zs
    have := intWords_intStr (z :: zs)
    simp only [Wish.dest, Wish.values, closeOption, this, grant]
    simp
  · rfl
  · rename_i n
    have := intWords_intStr [n]
    simp only [List.map_cons, List.map_nil] at this
    simp only [Wish.dest, Wish.values, closeOption, this, grant]

theorem one_value (w : Wish) (h : w.dest.kind = .one) : w.values.length = 1 := by
  cases w <;> first | rfl | (simp [Wish.dest, OptDest.kind] at h)

theorem parse_written (ws : List Written) : ∀ (o : Option (OptDest × List Str)) (a a' : CliArgs), closeOpen o a = .ok a' →
    parseWords (wordsOf ws) o a = .ok ((ws.map Written.wish).foldl grant a') := by
  induction ws with
  | nil => intro o a a' h; simpa [wordsOf, parseWords] using h
  | cons w ws ih =>
    intro o a a' h
    obtain ⟨s, hs, hn⟩ := w.documented
    have hc : classify w.name = .option w.wish.dest w.name none := by
      rw [hn]; exact classify_documented _ _ hs
    have hw : wordsOf (w :: ws) = w.name :: (w.wish.values ++ wordsOf ws) := rfl
    rw [hw, parseWords.eq_def]
    simp only [hc, h]
    by_cases hf : w.wish.dest.kind = .flag
    · rw [if_pos hf]
      have hv : w.wish.values = [] := by
        revert hf
        cases w.wish <;> first | (intro _; rfl) | (intro hf; simp [Wish.dest, OptDest.kind] at hf)
      have hg : raiseFlag w.wish.dest a' = .ok (grant a' w.wish) := by
        revert hf
        cases w.wish <;> first | (intro _; rfl) | (intro hf; simp [Wish.dest, OptDest.kind] at hf)
      rw [hg, hv]
      exact ih none _ _ rfl
    · rw [if_neg hf, parse_values _ _ (values_classified _ w.plain) _ _ [] _ hf, List.nil_append]
      · exact ih _ _ _ (close_wish _ hf _)
      · intro hk
        rw [one_value _ hk]
        simp

theorem grant_prepareImages (a : CliArgs) (w : Wish) : (grant a w).prepareImages = true ↔ a.prepareImages = true ∨ w = .prepareImages := by
  cases w <;> simp [grant, setFlag, Wish.dest]

theorem grant_step1 (a : CliArgs) (w : Wish) : (grant a w).step1 = true ↔ a.step1 = true ∨ w = .step1 := by
  cases w <;> simp [grant, setFlag, Wish.dest]

theorem grant_step2 (a : CliArgs) (w : Wish) : (grant a w).step2 = true ↔ a.step2 = true ∨ w = .step2 := by
  cases w <;> simp [grant, setFlag, Wish.dest]

theorem grant_step3 (a : CliArgs) (w : Wish) : (grant a w).step3 = true ↔ a.step3 = true ∨ w = .step3 := by
  cases w <;> simp [grant, setFlag, Wish.dest]

theorem grant_step3fast (a : CliArgs) (w : Wish) : (grant a w).step3fast = true ↔ a.step3fast = true ∨ w = .step3fast := by
  cases w <;> simp [grant, setFlag, Wish.dest]

theorem grant_restart (a : CliArgs) (w : Wish) : (grant a w).restart = true ↔ a.restart = true ∨ w = .restart := by
  cases w <;> simp [grant, setFlag, Wish.dest]

theorem grant_red (a : CliArgs) (w : Wish) : (grant a w).red = true ↔ a.red = true ∨ w = .red := by
  cases w <;> simp [grant, setFlag, Wish.dest]

theorem grant_green (a : CliArgs) (w : Wish) : (grant a w).green = true ↔ a.green = true ∨ w = .green := by
  cases w <;> simp [grant, setFlag, Wish.dest]

theorem grant_blue (a : CliArgs) (w : Wish) : (grant a w).blue = true ↔ a.blue = true ∨ w = .blue := by
  cases w <;> simp [grant, setFlag, Wish.dest]

theorem grant_rgb (a : CliArgs) (w : Wish) : (grant a w).rgb = true ↔ a.rgb = true ∨ w = .rgb := by
  cases w <;> simp [grant, setFlag, Wish.dest]

theorem grant_coordinates (a : CliArgs) (w : Wish) : (grant a w).coordinates = true ↔ a.coordinates = true ∨ w = .coordinates := by
  cases w <;> simp [grant, setFlag, Wish.dest]

theorem grant_analysis (a : CliArgs) (w : Wish) : (grant a w).analysis = true ↔ a.analysis = true ∨ w = .analysis := by
  cases w <;> simp [grant, setFlag, Wish.dest]

theorem grant_cc (a : CliArgs) (w : Wish) : (grant a w).cc = true ↔ a.cc = true ∨ w = .cc := by
  cases w <;> simp [grant, setFlag, Wish.dest]

theorem grant_demo (a : CliArgs) (w : Wish) : (grant a w).demo = true ↔ a.demo = true ∨ w = .demo := by
  cases w <;> simp [grant, setFlag, Wish.dest]

theorem grant_run (a : CliArgs) (w : Wish) : (grant a w).run = true ↔ a.run = true ∨ w = .run := by
  cases w <;> simp [grant, setFlag, Wish.dest]

theorem grant_acceptance (a : CliArgs) (w : Wish) : (grant a w).acceptance = true ↔ a.acceptance = true ∨ w = .acceptance := by
  cases w <;> simp [grant, setFlag, Wish.dest]

theorem grant_acceptanceDebug (a : CliArgs) (w : Wish) : (grant a w).acceptanceDebug = true ↔ a.acceptanceDebug = true ∨ w = .acceptanceDebug := by
  cases w <;> simp [grant, setFlag, Wish.dest]

theorem grant_config (a : CliArgs) (w : Wish) :
    (grant a w).config = (match w with | .config vs => some vs | _ => none).or a.config := by
  cases w <;> simp [grant, setFlag, Wish.dest]

theorem grant_configAnalysis (a : CliArgs) (w : Wish) :
    (grant a w).configAnalysis = true ↔ a.configAnalysis = true ∨ ∃ vs, w = .configAnalysis vs := by
  cases w <;> simp [grant, setFlag, Wish.dest]

theorem grant_ccChannels (a : CliArgs) (w : Wish) :
    (grant a w).ccChannels = a.ccChannels ++ (match w with | .ccChannels z zs => some (z :: zs) | _ => none).toList := by
  cases w <;> simp [grant, setFlag, Wish.dest]

theorem grant_setup (a : CliArgs) (w : Wish) :
    (grant a w).setup = (match w with | .setup p => some p | _ => none).or a.setup := by
  cases w <;> simp [grant, setFlag, Wish.dest]

theorem grant_nCores (a : CliArgs) (w : Wish) :
    (grant a w).nCores = (match w with | .nCores n => some n | _ => none).or a.nCores := by
  cases w <;> simp [grant, setFlag, Wish.dest]

theorem grant_means (l : List Written) : Means l ((l.map Written.wish).foldl grant .defaults) := by
  induction l using List.reverseRecOn with
  | nil => constructor <;> simp [CliArgs.defaults, asked, lastOf]
  | append_singleton l w ih =>
    rw [List.map_append, List.foldl_append]
    simp only [List.map_cons, List.map_nil, List.foldl_cons, List.foldl_nil]
    generalize (l.map Written.wish).foldl grant .defaults = a at ih
    obtain ⟨wish, name, doc, pl⟩ := w
    have hask : ∀ v : Wish, asked v (l ++ [⟨wish, name, doc, pl⟩]) ↔ asked v l ∨ wish = v := by
      intro v
      simp [asked, or_and_right, exists_or]
    have hlast : ∀ {α : Type} (f : Wish → Option α), lastOf f (l ++ [⟨wish, name, doc, pl⟩]) =
        ((f wish).or (lastOf f l)) := by
      intro α f
      unfold lastOf
      rw [List.filterMap_append]
      cases hf : f wish <;> simp [hf]
    constructor
    · rw [grant_prepareImages, hask, ih.prepareImages]
    · rw [grant_step1, hask, ih.step1]
    · rw [grant_step2, hask, ih.step2]
    · rw [grant_step3, hask, ih.step3]
    · rw [grant_step3fast, hask, ih.step3fast]
    · rw [grant_restart, hask, ih.restart]
    · rw [grant_red, hask, ih.red]
    · rw [grant_green, hask, ih.green]
    · rw [grant_blue, hask, ih.blue]
    · rw [grant_rgb, hask, ih.rgb]
    · rw [grant_coordinates, hask, ih.coordinates]
    · rw [grant_analysis, hask, ih.analysis]
    · rw [grant_cc, hask, ih.cc]
    · rw [grant_demo, hask, ih.demo]
    · rw [grant_run, hask, ih.run]
    · rw [grant_acceptance, hask, ih.acceptance]
    · rw [grant_acceptanceDebug, hask, ih.acceptanceDebug]
    · rw [grant_config, hlast, ih.config]
    · rw [grant_configAnalysis, ih.configAnalysis]
      simp only [hask, exists_or]
    · rw [grant_ccChannels, ih.ccChannels, List.filterMap_append]
      congr 1
    · rw [grant_setup, hlast, ih.setup]
    · rw [grant_nCores, hlast, ih.nCores]

/-- **C113.** Whatever is asked for in documented spellings, in any order and any number of times, is understood: every flag is
set exactly if it is asked for, values are the ones given last (the channels of the colour correction are collected). -/
theorem C113_documented (ws : List Written) : ∃ a, parseWords (wordsOf ws) none .defaults = .ok a ∧ Means ws a :=
  ⟨_, parse_written ws none _ _ rfl, grant_means ws⟩

/-- **C113.** The program then does what these arguments mean. -/
theorem C113_main (ws : List Written) (hne : ws ≠ []) (hasConfig hasAna : Bool) :
    ∃ a, Means ws a ∧ ledsaMain (wordsOf ws) hasConfig hasAna = cliMain a hasConfig hasAna := by
  obtain ⟨a, h, hm⟩ := C113_documented ws
  refine ⟨a, hm, ?_⟩
  unfold ledsaMain
  rw [h]
  simp only
  rw [if_neg]
  match ws, hne with
  | w :: ws, _ => simp [wordsOf]

/-- **C113.** The spelling does not matter. -/
theorem C113_spelling (ws ws' : List Written) (h : ws.map Written.wish = ws'.map Written.wish) (hasConfig hasAna : Bool) :
    ledsaMain (wordsOf ws) hasConfig hasAna = ledsaMain (wordsOf ws') hasConfig hasAna := by
  have hl := congrArg List.length h
  simp only [List.length_map] at hl
  unfold ledsaMain
  rw [parse_written ws none _ _ rfl, parse_written ws' none _ _ rfl, h]
  simp only
  match ws, ws', hl with
  | [], [], _ => rfl
  | w :: ws, w' :: ws', _ => simp [wordsOf]

/-- Wishes without values. -/
def Wish.isFlag (w : Wish) : Prop := w.dest.kind = .flag

theorem setFlag_comm (d e : OptDest) (a : CliArgs) : setFlag d (setFlag e a) = setFlag e (setFlag d a) := by
  cases d <;> cases e <;> rfl

theorem grant_flag {w : Wish} (h : w.isFlag) (a : CliArgs) : grant a w = setFlag w.dest a := by
  unfold Wish.isFlag at h
  revert h
  cases w <;> first | (intro _; rfl) | (intro hf; simp [Wish.dest, OptDest.kind] at hf)

/-- **C113.** The order of flags does not matter. -/
theorem C113_order (ws ws' : List Written) (h : (ws.map Written.wish).Perm (ws'.map Written.wish))
    (hf : ∀ w ∈ ws, w.wish.isFlag) (hasConfig hasAna : Bool) :
    ledsaMain (wordsOf ws) hasConfig hasAna = ledsaMain (wordsOf ws') hasConfig hasAna := by
  have hl := h.length_eq
  simp only [List.length_map] at hl
  have hfold : ∀ (l l' : List Wish), l.Perm l' → (∀ w ∈ l, w.isFlag) → ∀ a, l.foldl grant a = l'.foldl grant a := by
    intro l l' hp
    induction hp with
    | nil => intro _ a; rfl
    | cons x _ ih => intro hw a; exact ih (fun w hm => hw w (List.mem_cons_of_mem _ hm)) _
    | swap x y l =>
      intro hw a
      simp only [List.foldl_cons]
      have hx : x.isFlag := hw x (by simp)
      have hy : y.isFlag := hw y (by simp)
      rw [grant_flag hy, grant_flag hx, grant_flag hx, grant_flag hy, setFlag_comm]
    | trans h1 h2 ih1 ih2 =>
      intro hw a
      rw [ih1 hw, ih2 (fun w hm => hw w (h1.mem_iff.2 hm))]
  unfold ledsaMain
  rw [parse_written ws none _ _ rfl, parse_written ws' none _ _ rfl, hfold _ _ h]
  · simp only
    match ws, ws', hl with
    | [], [], _ => rfl
    | w :: ws, w' :: ws', _ => simp [wordsOf]
  · intro w hw
    obtain ⟨x, hx, rfl⟩ := List.mem_map.1 hw
    exact hf x hx

example : ledsaMain ["-s3_fast".toList, "-rgb".toList] true false =
    ([.extractor true [0, 1, 2] false, .setupStep3, .process [0, 1, 2] false], none) := by decide +kernel

example : ledsaMain ["--demo".toList, "--run".toList, "--n_cores".toList, "4".toList] false false = ([.demoRun 4], none) := by
  decide +kernel

example : ledsaMain ["-conf".toList, "img".toList, "7".toList, "-s1".toList] false false =
    ([.createConfig ["img".toList, "7".toList], .extractor false [0] true, .findAreas], none) := by decide +kernel

/-! ### Refused words -/

theorem intWords_error {ws : List Str} {e : PyErr} (h : intWords ws = .error e) : e = .systemExit := by
  induction ws with
  | nil => simp [intWords] at h
  | cons w ws ih =>
    unfold intWords at h
    split at h
    · simp at h
    · simpa using h.symm

theorem closeOption_error {d : OptDest} {ws : List Str} {a : CliArgs} {e : PyErr} (h : closeOption d ws a = .error e) :
    e = .systemExit := by
  unfold closeOption at h
  split at h <;> try (simp at h)
  · split at h
    · simpa using h.symm
    · split at h
      · simp at h
      · rename_i heq
        have := intWords_error heq
        simp only [Except.error.injEq] at h
        rw [← h, this]
  · split at h
    · simp at h
    · simpa using h.symm
  · split at h
    · split at h
      · simp at h
      · simpa using h.symm
    · simpa using h.symm

theorem closeOpen_error {o : Option (OptDest × List Str)} {a : CliArgs} {e : PyErr} (h : closeOpen o a = .error e) :
    e = .systemExit := by
  unfold closeOpen at h
  split at h
  · simp at h
  · exact closeOption_error h

theorem raiseFlag_error {d : OptDest} {a : CliArgs} {e : PyErr} (h : raiseFlag d a = .error e) : e = .systemExit := by
  unfold raiseFlag at h
  split at h
  · simpa using h.symm
  · simp at h

theorem cluster_error {cs : Str} {e : PyErr} : ∀ {a : CliArgs}, cluster cs a = .error e → e = .systemExit := by
  induction cs with
  | nil => intro a h; simp [cluster] at h
  | cons c cs ih =>
    intro a h
    unfold cluster at h
    split at h
    · split at h
      · split at h
        · exact ih h
        · rename_i heq
          have := raiseFlag_error heq
          simp only [Except.error.injEq] at h
          rw [← h, this]
      · simpa using h.symm
    · simpa using h.symm

theorem withExplicit_error {d : OptDest} {name x : Str} {a : CliArgs} {e : PyErr} (h : withExplicit d name x a = .error e) :
    e = .systemExit := by
  unfold withExplicit at h
  split at h
  · split at h
    · simpa using h.symm
    · split at h
      · exact cluster_error h
      · rename_i heq
        have := raiseFlag_error heq
        simp only [Except.error.injEq] at h
        rw [← h, this]
  · exact closeOption_error h

/-- A refused word anywhere refuses the whole command line. -/
theorem parse_refused (l : List Str) (w : Str) (hw : w ∈ l) (hc : classify w = .refused) :
    ∀ (o : Option (OptDest × List Str)) (a : CliArgs), parseWords l o a = .error .systemExit := by
  induction l with
  | nil => cases hw
  | cons v l ih =>
    intro o a
    rw [parseWords.eq_def]
    simp only
    rcases List.mem_cons.1 hw with h | h
    · rw [← h, hc]
    · have ih' := ih h
      split
      · rfl
      · split
        · rfl
        · split
          · exact ih' _ _
          · rfl
      · split
        · rename_i heq; rw [closeOpen_error heq]
        · split
          · split
            · exact ih' _ _
            · rename_i heq; rw [withExplicit_error heq]
          · split
            · split
              · exact ih' _ _
              · rename_i heq; rw [raiseFlag_error heq]
            · exact ih' _ _

theorem main_refused (l : List Str) (w : Str) (hw : w ∈ l) (hc : classify w = .refused) (hasConfig hasAna : Bool) :
    ledsaMain l hasConfig hasAna = ([], some .systemExit) := by
  unfold ledsaMain
  rw [parse_refused l w hw hc]

/-! ### C114 -/

/-- The channel of a letter. -/
def letterChannel : Char → Option ℕ
  | 'r' => some 0
  | 'g' => some 1
  | 'b' => some 2
  | _ => none

/-- Letters of channels. -/
def Letters (cs : Str) : Prop := ∀ c ∈ cs, c = 'r' ∨ c = 'g' ∨ c = 'b'

/-- The arguments after one more letter. -/
def addLetter (a : CliArgs) (c : Char) : CliArgs :=
  if c = 'r' then { a with red := true } else if c = 'g' then { a with green := true } else { a with blue := true }

theorem cluster_letters (cs : Str) (h : Letters cs) : ∀ a : CliArgs, cluster cs a = .ok (cs.foldl addLetter a) := by
  induction cs with
  | nil => intro a; rfl
  | cons c cs ih =>
    intro a
    have ih' := ih (fun x hx => h x (List.mem_cons_of_mem _ hx))
    have hr : optionOf ['-', 'r'] = some .red := by decide +kernel
    have hg : optionOf ['-', 'g'] = some .green := by decide +kernel
    have hb : optionOf ['-', 'b'] = some .blue := by decide +kernel
    unfold cluster
    rcases h c List.mem_cons_self with rfl | rfl | rfl
    · rw [hr]; simp only [OptDest.kind, if_true]; exact ih' _
    · rw [hg]; simp only [OptDest.kind, if_true]; exact ih' _
    · rw [hb]; simp only [OptDest.kind, if_true]; exact ih' _

theorem fold_letters (cs : Str) (h : Letters cs) : ∀ a : CliArgs, cs.foldl addLetter a =
    { a with red := a.red || cs.contains 'r', green := a.green || cs.contains 'g', blue := a.blue || cs.contains 'b' } := by
  induction cs with
  | nil => intro a; simp
  | cons c cs ih =>
    intro a
    rw [List.foldl_cons, ih (fun x hx => h x (List.mem_cons_of_mem _ hx))]
    rcases h c List.mem_cons_self with rfl | rfl | rfl <;> simp [addLetter]

/-- A word of a dash, a one-letter flag and more, which no declared name starts with, is that flag and the rest. -/
theorem classify_letters (c : Char) (d : OptDest) (rest : Str) (hc : c ≠ '-') (heq : '=' ∉ '-' :: c :: rest)
    (hd : declaredOptions.filter (fun p => p.1 = ['-', c]) = [(['-', c], d)])
    (hp : ∀ p ∈ declaredOptions, ¬('-' :: c :: rest) <+: p.1) :
    classify ('-' :: c :: rest) = .option d ['-', c] (some rest) := by
  have hexact : optionOf ('-' :: c :: rest) = none := by
    unfold optionOf
    rw [Option.map_eq_none_iff, List.find?_eq_none]
    intro p hm he
    exact hp p hm (by rw [beq_iff_eq.1 he])
  have habb : abbreviated ('-' :: c :: rest) = [.option d ['-', c] (some rest)] := by
    have h1 : abbreviated ('-' :: c :: rest) = declaredOptions.filterMap (fun p =>
        if p.1 = ['-', c] then some (.option p.2 p.1 (some rest))
        else if ('-' :: c :: rest).isPrefixOf p.1 then some (.option p.2 p.1 none) else none) := by
      unfold abbreviated
      split
      · rename_i heq'; simp only [List.cons.injEq] at heq'; exact absurd heq'.2.1 hc
      · rename_i c' rest' _ heq'
        simp only [List.cons.injEq, true_and] at heq'
        obtain ⟨rfl, rfl⟩ := heq'
        rfl
      · rename_i h2 h3
        exact absurd rfl (h3 c rest)
    have h2 : declaredOptions.filterMap (fun p =>
        if p.1 = ['-', c] then some (WordClass.option p.2 p.1 (some rest))
        else if ('-' :: c :: rest).isPrefixOf p.1 then some (.option p.2 p.1 none) else none) =
        (declaredOptions.filter (fun p => p.1 = ['-', c])).map (fun p => WordClass.option p.2 p.1 (some rest)) := by
      rw [← List.filterMap_eq_map, List.filterMap_filter]
      refine List.filterMap_congr ?_
      intro p hm
      by_cases h : p.1 = ['-', c]
      · simp [h]
      · have : ('-' :: c :: rest).isPrefixOf p.1 = false := by
          rw [Bool.eq_false_iff]
          intro hh
          exact hp p hm (List.isPrefixOf_iff_prefix.1 hh)
        simp [h, this]
    rw [h1, h2, hd]
    rfl
  unfold classify
  simp only [hexact]
  rw [if_neg (by simp), if_neg (by simp [hc]), splitEq_none heq, habb]

theorem no_prefix (u v : Str) (h : ∀ p ∈ declaredOptions, u.isPrefixOf p.1 = false) : ∀ p ∈ declaredOptions, ¬(u ++ v) <+: p.1 := by
  intro p hp hpre
  have := h p hp
  rw [Bool.eq_false_iff] at this
  exact this (List.isPrefixOf_iff_prefix.2 ((List.prefix_append u v).trans hpre))

theorem parse_letters (c : Char) (d : OptDest) (rest : Str) (hr : rest ≠ []) (hc : c ≠ '-')
    (hcl : classify ('-' :: c :: rest) = .option d ['-', c] (some rest)) (hk : d.kind = .flag) (hh : d ≠ .help)
    (hL : Letters rest) (a : CliArgs) :
    parseWords ['-' :: c :: rest] none a = .ok (rest.foldl addLetter (setFlag d a)) := by
  rw [parseWords.eq_def]
  simp only [hcl, closeOpen, withExplicit]
  rw [if_pos hk, if_neg (by simp [hc, hr])]
  simp only [raiseFlag, if_neg hh, cluster_letters rest hL]
  rfl

theorem parse_rgb_letters (cs : Str) (h : Letters cs) (hne : cs ≠ []) (hrg : cs ≠ ['r', 'g']) (a : CliArgs) :
    parseWords ['-' :: cs] none a =
      .ok (if cs = ['r', 'g', 'b'] then { a with rgb := true } else cs.foldl addLetter a) := by
  have hr1 : classify ['-', 'r'] = .option .red ['-', 'r'] none := by decide +kernel
  have hg1 : classify ['-', 'g'] = .option .green ['-', 'g'] none := by decide +kernel
  have hb1 : classify ['-', 'b'] = .option .blue ['-', 'b'] none := by decide +kernel
  have hrgb : classify ['-', 'r', 'g', 'b'] = .option .rgb ['-', 'r', 'g', 'b'] none := by decide +kernel
  have hfr : declaredOptions.filter (fun p => p.1 = ['-', 'r']) = [(['-', 'r'], .red)] := by decide +kernel
  have hfg : declaredOptions.filter (fun p => p.1 = ['-', 'g']) = [(['-', 'g'], .green)] := by decide +kernel
  have hfb : declaredOptions.filter (fun p => p.1 = ['-', 'b']) = [(['-', 'b'], .blue)] := by decide +kernel
  have key : ∀ (c : Char) (d : OptDest) (u v : Str), u ++ v ≠ [] → c = 'r' ∨ c = 'g' ∨ c = 'b' →
      Letters (u ++ v) → declaredOptions.filter (fun p => p.1 = ['-', c]) = [(['-', c], d)] →
      (∀ p ∈ declaredOptions, ('-' :: c :: u).isPrefixOf p.1 = false) → d.kind = .flag → d ≠ .help →
      parseWords ['-' :: c :: (u ++ v)] none a = .ok ((u ++ v).foldl addLetter (setFlag d a)) := by
    intro c d u v hne' hc hL hf hp hk hh
    have hc' : c ≠ '-' := by rcases hc with rfl | rfl | rfl <;> decide
    refine parse_letters c d (u ++ v) hne' hc' (classify_letters c d _ hc' ?_ hf (no_prefix ('-' :: c :: u) v hp)) hk hh hL a
    intro hm
    simp only [List.mem_cons] at hm
    rcases hm with hm | hm | hm
    · revert hm; decide
    · rcases hc with rfl | rfl | rfl <;> (revert hm; decide)
    · rcases hL _ hm with hx | hx | hx <;> (revert hx; decide)
  match cs, h, hne, hrg with
  | [c], h, _, _ =>
    rw [parseWords.eq_def]
    rcases h c List.mem_cons_self with rfl | rfl | rfl
    · simp only [hr1]; rfl
    · simp only [hg1]; rfl
    · simp only [hb1]; rfl
  | c :: x :: rest, h, _, hrg =>
    have hc := h c List.mem_cons_self
    have hL : Letters (x :: rest) := fun y hy => h y (List.mem_cons_of_mem _ hy)
    have hx := hL x List.mem_cons_self
    have hres : ∀ d, setFlag d a = addLetter a c → parseWords ['-' :: c :: x :: rest] none a =
        .ok ((x :: rest).foldl addLetter (setFlag d a)) → c :: x :: rest ≠ ['r', 'g', 'b'] →
        parseWords ['-' :: c :: x :: rest] none a =
          .ok (if c :: x :: rest = ['r', 'g', 'b'] then { a with rgb := true } else (c :: x :: rest).foldl addLetter a) := by
      intro d hd hp hn
      rw [hp, if_neg hn, hd]
      rfl
    rcases hc with rfl | rfl | rfl
    · rcases hx with rfl | rfl | rfl
      · exact hres .red rfl (key 'r' .red ['r'] rest (by simp) (by simp) hL hfr (by decide +kernel) rfl (by decide)) (by simp)
      · match rest, h, hL, hrg with
        | [], _, _, hrg => exact absurd rfl hrg
        | y :: t, h, hL, _ =>
          rcases hL y (by simp) with rfl | rfl | rfl
          · exact hres .red rfl (key 'r' .red ['g', 'r'] t (by simp) (by simp) hL hfr (by decide +kernel) rfl (by decide)) (by simp)
          · exact hres .red rfl (key 'r' .red ['g', 'g'] t (by simp) (by simp) hL hfr (by decide +kernel) rfl (by decide)) (by simp)
          · match t, hL with
            | [], _ =>
              rw [parseWords.eq_def]
              simp only [hrgb]
              rfl
            | z :: t, hL =>
              rcases hL z (by simp) with rfl | rfl | rfl
              · exact hres .red rfl (key 'r' .red ['g', 'b', 'r'] t (by simp) (by simp) hL hfr (by decide +kernel) rfl (by decide)) (by simp)
              · exact hres .red rfl (key 'r' .red ['g', 'b', 'g'] t (by simp) (by simp) hL hfr (by decide +kernel) rfl (by decide)) (by simp)
              · exact hres .red rfl (key 'r' .red ['g', 'b', 'b'] t (by simp) (by simp) hL hfr (by decide +kernel) rfl (by decide)) (by simp)
      · exact hres .red rfl (key 'r' .red ['b'] rest (by simp) (by simp) hL hfr (by decide +kernel) rfl (by decide)) (by simp)
    · rcases hx with rfl | rfl | rfl
      · exact hres .green rfl (key 'g' .green ['r'] rest (by simp) (by simp) hL hfg (by decide +kernel) rfl (by decide)) (by simp)
      · exact hres .green rfl (key 'g' .green ['g'] rest (by simp) (by simp) hL hfg (by decide +kernel) rfl (by decide)) (by simp)
      · exact hres .green rfl (key 'g' .green ['b'] rest (by simp) (by simp) hL hfg (by decide +kernel) rfl (by decide)) (by simp)
    · rcases hx with rfl | rfl | rfl
      · exact hres .blue rfl (key 'b' .blue ['r'] rest (by simp) (by simp) hL hfb (by decide +kernel) rfl (by decide)) (by simp)
      · exact hres .blue rfl (key 'b' .blue ['g'] rest (by simp) (by simp) hL hfb (by decide +kernel) rfl (by decide)) (by simp)
      · exact hres .blue rfl (key 'b' .blue ['b'] rest (by simp) (by simp) hL hfb (by decide +kernel) rfl (by decide)) (by simp)

/-- **C114.** Letters of channels written together, in any order and number, are understood as these channels and nothing else.
Missing: the letters `rg` (`C114_false`). -/
theorem C114_partial (cs : Str) (h : Letters cs) (hne : cs ≠ []) (hrg : cs ≠ ['r', 'g']) :
    ∃ a, parseWords ['-' :: cs] none .defaults = .ok a ∧
      (∀ k, k ∈ cliChannels a ↔ ∃ c ∈ cs, letterChannel c = some k) ∧
      a = { CliArgs.defaults with red := a.red, green := a.green, blue := a.blue, rgb := a.rgb } := by
  refine ⟨_, parse_rgb_letters cs h hne hrg _, ?_, ?_⟩
  · intro k
    rw [(C70_channels _).1 k]
    by_cases hx : cs = ['r', 'g', 'b']
    · subst hx
      rw [if_pos rfl]
      match k with
      | 0 => simp [channelFlag, letterChannel]
      | 1 => simp [channelFlag, letterChannel]
      | 2 => simp [channelFlag, letterChannel]
      | k + 3 =>
        have : ∀ n : ℕ, n ≤ 2 → n ≠ k + 3 := by omega
        simp [channelFlag, letterChannel]
    · rw [if_neg hx, fold_letters cs h]
      have hex : ∃ j, channelFlag { CliArgs.defaults with
          red := CliArgs.defaults.red || cs.contains 'r', green := CliArgs.defaults.green || cs.contains 'g',
          blue := CliArgs.defaults.blue || cs.contains 'b' } j = true := by
        match cs, hne, h with
        | c :: cs, _, h =>
          rcases h c List.mem_cons_self with rfl | rfl | rfl
          · exact ⟨0, by simp [channelFlag]⟩
          · exact ⟨1, by simp [channelFlag]⟩
          · exact ⟨2, by simp [channelFlag]⟩
      rw [or_iff_left]
      · match k with
        | 0 =>
          simp only [channelFlag, CliArgs.defaults, Bool.false_or, Bool.or_false, List.contains_eq_mem, decide_eq_true_eq]
          constructor
          · exact fun hm => ⟨_, hm, rfl⟩
          · rintro ⟨c, hc, he⟩
            rcases h c hc with rfl | rfl | rfl
            · exact hc
            · simp [letterChannel] at he
            · simp [letterChannel] at he
        | 1 =>
          simp only [channelFlag, CliArgs.defaults, Bool.false_or, Bool.or_false, List.contains_eq_mem, decide_eq_true_eq]
          constructor
          · exact fun hm => ⟨_, hm, rfl⟩
          · rintro ⟨c, hc, he⟩
            rcases h c hc with rfl | rfl | rfl
            · simp [letterChannel] at he
            · exact hc
            · simp [letterChannel] at he
        | 2 =>
          simp only [channelFlag, CliArgs.defaults, Bool.false_or, Bool.or_false, List.contains_eq_mem, decide_eq_true_eq]
          constructor
          · exact fun hm => ⟨_, hm, rfl⟩
          · rintro ⟨c, hc, he⟩
            rcases h c hc with rfl | rfl | rfl
            · simp [letterChannel] at he
            · simp [letterChannel] at he
            · exact hc
        | k + 3 =>
          simp only [channelFlag, Bool.false_eq_true, false_iff]
          rintro ⟨c, hc, he⟩
          rcases h c hc with rfl | rfl | rfl <;> simp [letterChannel] at he
      · rintro ⟨-, hall⟩
        obtain ⟨j, hj⟩ := hex
        rw [hall j] at hj
        cases hj
  · by_cases hx : cs = ['r', 'g', 'b']
    · rw [if_pos hx]
    · rw [if_neg hx, fold_letters cs h]

/-- Refuted: `-rg` is refused wherever it is written, because it may also be the beginning of `-rgb`. -/
theorem C114_false (l : List Str) (h : "-rg".toList ∈ l) (hasConfig hasAna : Bool) :
    ledsaMain l hasConfig hasAna = ([], some .systemExit) :=
  main_refused l _ h (by decide +kernel) _ _

example : ledsaMain ["-gr".toList] true false =
    ([.extractor true [0, 1] true, .setupStep3, .process [0, 1] true], none) := by decide +kernel

/-! ### C115 -/

/-- Every documented name, with the help option. -/
def documentedNames : List String :=
  ["-h", "--help", "--prepare_images", "-s1", "--step_1", "--find_search_areas", "-s2", "--step_2", "--analyse_positions",
   "-s3", "--step_3", "--analyse_photo", "-s3_fast", "--step_3_fast", "--analyse_photo_fast", "-conf", "--config",
   "-re", "--restart", "-r", "--red", "-g", "--green", "-b", "--blue", "-rgb", "--rgb", "-coord", "--coordinates",
   "-a", "--analysis", "-conf_a", "--config_analysis", "--cc", "--color_correction", "--cc_channels",
   "-d", "--demo", "--setup", "--run", "--n_cores", "-atest", "--acceptance_test", "-atest_debug", "--acceptance_test_debug"]

/-- A word that is meant as an option but is not the beginning of any: it starts with a dash, what is before an `=` starts no
documented name, and it is neither a negative number nor one-letter flags. -/
structure Misspelled (w : Str) : Prop where
  dash : ∃ c t, w = '-' :: c :: t ∧ isDigit c = false ∧ c ≠ '.' ∧ ∀ n ∈ documentedNames, n.toList ≠ ['-', c]
  unknown : ∀ n ∈ documentedNames, ¬(w.takeWhile (· ≠ '=')) <+: n.toList

theorem splitEq_fst (w : Str) : (splitEq w).1 = w.takeWhile (· ≠ '=') := by
  induction w with
  | nil => rfl
  | cons c cs ih =>
    unfold splitEq
    by_cases h : c = '='
    · simp [h]
    · simp only [if_neg h, ih]
      rw [List.takeWhile_cons_of_pos (by simpa using h)]

theorem names_documented : ∀ p ∈ declaredOptions, ∃ n ∈ documentedNames, p.1 = n.toList := by decide +kernel

theorem classify_misspelled (w : Str) (h : Misspelled w) : classify w = if ' ' ∈ w then .value else .refused := by
  obtain ⟨⟨c, t, rfl, hd, hdot, h1⟩, hu⟩ := h
  have hu' : ∀ p ∈ declaredOptions, ¬(splitEq ('-' :: c :: t)).1 <+: p.1 := by
    intro p hp
    obtain ⟨n, hn, he⟩ := names_documented p hp
    rw [he, splitEq_fst]
    exact hu n hn
  have hpre : (splitEq ('-' :: c :: t)).1 <+: '-' :: c :: t := by
    rw [splitEq_fst]; exact List.takeWhile_prefix _
  have hw : ∀ p ∈ declaredOptions, ¬('-' :: c :: t) <+: p.1 := fun p hp hh => hu' p hp (hpre.trans hh)
  have hnone : ∀ v : Str, (∀ p ∈ declaredOptions, ¬v <+: p.1) → optionOf v = none := by
    intro v hv
    unfold optionOf
    rw [Option.map_eq_none_iff, List.find?_eq_none]
    intro p hm he
    exact hv p hm (by rw [beq_iff_eq.1 he])
  have habb : abbreviated ('-' :: c :: t) = [] := by
    unfold abbreviated
    split
    · rw [List.filterMap_eq_nil_iff]
      intro p hp
      rw [if_neg]
      intro hh
      exact hu' p hp (List.isPrefixOf_iff_prefix.1 hh)
    · rename_i c' rest' _ heq'
      simp only [List.cons.injEq, true_and] at heq'
      obtain ⟨rfl, rfl⟩ := heq'
      rw [List.filterMap_eq_nil_iff]
      intro p hp
      rw [if_neg, if_neg]
      · intro hh
        exact hw p hp (List.isPrefixOf_iff_prefix.1 hh)
      · obtain ⟨n, hn, he⟩ := names_documented p hp
        rw [he]
        exact h1 n hn
    · rfl
  have hneg : isNegNumber ('-' :: c :: t) = false := by
    simp only [isNegNumber]
    rw [Bool.or_eq_false_iff]
    refine ⟨by simp [hd], ?_⟩
    rw [List.dropWhile_cons_of_neg (by simp [hd])]
    split
    · rename_i heq; simp only [List.cons.injEq] at heq; exact absurd heq.1 hdot
    · rfl
  unfold classify
  simp only [hnone _ hw]
  rw [if_neg (by simp), if_neg]
  · rw [hnone _ hu', habb, hneg]
    cases (splitEq ('-' :: c :: t)).2 <;> simp
  · intro h2
    obtain ⟨n, hn⟩ : ∃ n ∈ documentedNames, ['-', '-'] <+: n.toList := ⟨"--help", by decide +kernel, by decide +kernel⟩
    refine hu n hn.1 ?_
    rw [h2]
    exact hn.2

/-- **C115.** A misspelled option, wherever it is written, ends the program before anything is done. Missing: words with a
space (`C115_false`). -/
theorem C115_partial (l : List Str) (w : Str) (hw : w ∈ l) (h : Misspelled w) (hs : ' ' ∉ w) (hasConfig hasAna : Bool) :
    ledsaMain l hasConfig hasAna = ([], some .systemExit) :=
  main_refused l w hw (by rw [classify_misspelled w h, if_neg hs]) _ _

theorem parse_stray (v : Str) (hv : v.head? ≠ some '-') (rest : List Str) (ws : List Written) :
    ∀ (o : Option (OptDest × List Str)) (a a' : CliArgs), closeOpen o a = .ok a' → (ws = [] → o = none) →
      (∀ w ∈ ws.getLast?, w.wish.isFlag) → parseWords (wordsOf ws ++ v :: rest) o a = .error .systemExit := by
  induction ws with
  | nil =>
    intro o a a' _ ho _
    rw [ho rfl]
    have hw : wordsOf [] ++ v :: rest = v :: rest := rfl
    rw [hw, parseWords.eq_def]
    simp only [classify_plain v hv]
  | cons w ws ih =>
    intro o a a' h _ hl
    obtain ⟨s, hs, hn⟩ := w.documented
    have hc : classify w.name = .option w.wish.dest w.name none := by
      rw [hn]; exact classify_documented _ _ hs
    have hl' : ∀ x ∈ ws.getLast?, x.wish.isFlag := by
      intro x hx
      refine hl x ?_
      rw [List.getLast?_cons, Option.mem_def.1 hx]
      rfl
    have hw : wordsOf (w :: ws) ++ v :: rest = w.name :: (w.wish.values ++ (wordsOf ws ++ v :: rest)) := by
      simp [wordsOf]
    rw [hw, parseWords.eq_def]
    simp only [hc, h]
    by_cases hf : w.wish.dest.kind = .flag
    · rw [if_pos hf]
      have hvs : w.wish.values = [] := by
        revert hf
        cases w.wish <;> first | (intro _; rfl) | (intro hf; simp [Wish.dest, OptDest.kind] at hf)
      have hg : raiseFlag w.wish.dest a' = .ok (grant a' w.wish) := by
        revert hf
        cases w.wish <;> first | (intro _; rfl) | (intro hf; simp [Wish.dest, OptDest.kind] at hf)
      rw [hg, hvs]
      exact ih none _ _ rfl (fun _ => rfl) hl'
    · rw [if_neg hf, parse_values _ _ (values_classified _ w.plain) _ _ [] _ hf, List.nil_append]
      · refine ih _ _ _ (close_wish _ hf _) ?_ hl'
        intro he
        subst he
        exact absurd (hl w rfl) hf
      · intro hk
        rw [one_value _ hk]
        simp

/-- **C115.** So does a word that is no option where none is expected: at the beginning, or after a flag. -/
theorem C115_stray (ws : List Written) (hf : ∀ w ∈ ws.getLast?, w.wish.isFlag) (v : Str) (hv : v.head? ≠ some '-')
    (rest : List Str) (hasConfig hasAna : Bool) :
    ledsaMain (wordsOf ws ++ v :: rest) hasConfig hasAna = ([], some .systemExit) := by
  unfold ledsaMain
  rw [parse_stray v hv rest ws none _ _ rfl (fun _ => rfl) hf]

/-- A request for the help text anywhere ends the program. -/
theorem parse_help (l : List Str) (w : Str) (hw : w ∈ l) (hc : w = "-h".toList ∨ w = "--help".toList) :
    ∀ (o : Option (OptDest × List Str)) (a : CliArgs), parseWords l o a = .error .systemExit := by
  have hcl : ∃ name, classify w = .option .help name none := by
    rcases hc with rfl | rfl
    · exact ⟨"-h".toList, by decide +kernel⟩
    · exact ⟨"--help".toList, by decide +kernel⟩
  obtain ⟨name, hcl⟩ := hcl
  induction l with
  | nil => cases hw
  | cons v l ih =>
    intro o a
    rw [parseWords.eq_def]
    simp only
    rcases List.mem_cons.1 hw with h | h
    · rw [← h, hcl]
      simp only
      split
      · rename_i heq; rw [closeOpen_error heq]
      · rfl
    · have ih' := ih h
      split
      · rfl
      · split
        · rfl
        · split
          · exact ih' _ _
          · rfl
      · split
        · rename_i heq; rw [closeOpen_error heq]
        · split
          · split
            · exact ih' _ _
            · rename_i heq; rw [withExplicit_error heq]
          · split
            · split
              · exact ih' _ _
              · rename_i heq; rw [raiseFlag_error heq]
            · exact ih' _ _

/-- **C115.** With `-h` or `--help` among the words nothing is done, whatever else is requested. -/
theorem C115_help (l : List Str) (h : "-h".toList ∈ l ∨ "--help".toList ∈ l) (hasConfig hasAna : Bool) :
    ledsaMain l hasConfig hasAna = ([], some .systemExit) := by
  unfold ledsaMain
  rcases h with h | h
  · rw [parse_help l _ h (Or.inl rfl)]
  · rw [parse_help l _ h (Or.inr rfl)]

example : ledsaMain ["-s1".toList, "--help".toList, "-a".toList] true true = ([], some .systemExit) := C115_help _ (Or.inr (by simp)) _ _

/-- **C115.** Without any word the program ends without doing anything. -/
theorem C115_empty (hasConfig hasAna : Bool) : ledsaMain [] hasConfig hasAna = ([], some .systemExit) := rfl

/-- Refuted: with a space in it, a misspelled option after `-conf` becomes the image directory of the new configuration. -/
theorem C115_false (t : Str) (hs : ' ' ∈ t) (h : Misspelled t) (hasConfig hasAna : Bool) :
    ledsaMain ["-conf".toList, t] hasConfig hasAna = ([.createConfig [t]], none) := by
  have h1 : classify "-conf".toList = .option .config "-conf".toList none := by decide +kernel
  have h2 : classify t = .value := by rw [classify_misspelled t h, if_pos hs]
  have hp : parseWords ["-conf".toList, t] none .defaults = .ok { CliArgs.defaults with config := some [t] } := by
    rw [parseWords.eq_def]
    simp only [h1, closeOpen]
    rw [if_neg (by decide : ¬OptDest.config.kind = .flag), parseWords.eq_def]
    simp only [h2]
    rfl
  unfold ledsaMain
  rw [hp]
  cases hasConfig <;> cases hasAna <;> rfl

example : Misspelled "--step_4".toList := by
  refine ⟨⟨'-', "step_4".toList, by decide, by decide, by decide, by decide +kernel⟩, by decide +kernel⟩

example : Misspelled "--images /data/a b".toList := by
  refine ⟨⟨'-', "images /data/a b".toList, by decide, by decide, by decide, by decide +kernel⟩, by decide +kernel⟩

end Ledsa
