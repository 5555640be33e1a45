import Verif.Model.Cli

/-!
# The words of the command line

`/repo/ledsa/core/parser_arguments_declaration.py`, `/repo/ledsa/__main__.py` 19-34.

The options are declared for `argparse`; modelled is what `parse_args` of the standard library does with a list of words and
these declarations: exact names, names with `=`, unambiguous prefixes, combined one-letter flags, and the words after an
option that takes values. Every refusal, and the help text, end the program with `SystemExit`. Not modelled: the word `--`
(refused here), and the wording of messages.
-/

namespace Ledsa

/-- What an option sets (the `dest` of `argparse`). -/
inductive OptDest
  | help | prepareImages | step1 | step2 | step3 | step3fast | config | restart | red | green | blue | rgb | coordinates
  | analysis | configAnalysis | cc | ccChannels | demo | setup | run | nCores | acceptance | acceptanceDebug
deriving DecidableEq, Repr

/-- How many words an option takes: `store_true`, `nargs='*'`, `nargs='+'`, or one. -/
inductive OptKind
  | flag | star | plus | one
deriving DecidableEq, Repr

/-- The declared number of words, parser_arguments_declaration.py: `--config` 35, `--config_analysis` 102, `--cc_channels` 107,
`--setup` 81, `--n_cores` 85; all others are flags. -/
def OptDest.kind : OptDest → OptKind
  | .config => .star
  | .configAnalysis => .star
  | .ccChannels => .plus
  | .setup => .one
  | .nCores => .one
  | _ => .flag

/-- The declared names in the order of declaration, __main__.py 21-25: `-h` is added by `argparse`, then
parser_arguments_declaration.py 14 (tools), 27-50 (data extraction), 100-108 (analysis), 79-86 (demo), 63-66 (testing). -/
def declaredOptions : List (Str × OptDest) :=
  [("-h".toList, .help), ("--help".toList, .help),
   ("--prepare_images".toList, .prepareImages),
   ("-s1".toList, .step1), ("--step_1".toList, .step1), ("--find_search_areas".toList, .step1),
   ("-s2".toList, .step2), ("--step_2".toList, .step2), ("--analyse_positions".toList, .step2),
   ("-s3".toList, .step3), ("--step_3".toList, .step3), ("--analyse_photo".toList, .step3),
   ("-s3_fast".toList, .step3fast), ("--step_3_fast".toList, .step3fast), ("--analyse_photo_fast".toList, .step3fast),
   ("-conf".toList, .config), ("--config".toList, .config),
   ("-re".toList, .restart), ("--restart".toList, .restart),
   ("-r".toList, .red), ("--red".toList, .red),
   ("-g".toList, .green), ("--green".toList, .green),
   ("-b".toList, .blue), ("--blue".toList, .blue),
   ("-rgb".toList, .rgb), ("--rgb".toList, .rgb),
   ("-coord".toList, .coordinates), ("--coordinates".toList, .coordinates),
   ("-a".toList, .analysis), ("--analysis".toList, .analysis),
   ("-conf_a".toList, .configAnalysis), ("--config_analysis".toList, .configAnalysis),
   ("--cc".toList, .cc), ("--color_correction".toList, .cc),
   ("--cc_channels".toList, .ccChannels),
   ("-d".toList, .demo), ("--demo".toList, .demo),
   ("--setup".toList, .setup), ("--run".toList, .run), ("--n_cores".toList, .nCores),
   ("-atest".toList, .acceptance), ("--acceptance_test".toList, .acceptance),
   ("-atest_debug".toList, .acceptanceDebug), ("--acceptance_test_debug".toList, .acceptanceDebug)]

/-- The option with exactly this name. -/
def optionOf (name : Str) : Option OptDest := (declaredOptions.find? (fun p => p.1 == name)).map Prod.snd

/-- What a word is taken for. -/
inductive WordClass
  | value
  | option (dest : OptDest) (name : Str) (explicit : Option Str)
  | refused
deriving DecidableEq, Repr

/-- The part before the first `=` and the part after it, if there is one. -/
def splitEq : Str → Str × Option Str
  | [] => ([], none)
  | c :: cs => if c = '=' then ([], some cs) else (c :: (splitEq cs).1, (splitEq cs).2)

/-- Options that a word may abbreviate (`_get_option_tuples`): for two dashes those whose name starts with the part before
`=`; for one dash the option of the first letter, the rest being its value, and those whose name starts with the word. -/
def abbreviated (w : Str) : List WordClass :=
  match w with
  | '-' :: '-' :: _ =>
    declaredOptions.filterMap (fun p => if (splitEq w).1.isPrefixOf p.1 then some (.option p.2 p.1 (splitEq w).2) else none)
  | '-' :: c :: rest =>
    declaredOptions.filterMap (fun p =>
      if p.1 = ['-', c] then some (.option p.2 p.1 (some rest))
      else if w.isPrefixOf p.1 then some (.option p.2 p.1 none) else none)
  | _ => []

/-- A negative number, `^-\d+$|^-\d*\.\d+$`. -/
def isNegNumber : Str → Bool
  | '-' :: t => (t ≠ [] && t.all isDigit) ||
    (match t.dropWhile isDigit with
     | '.' :: f => f ≠ [] && f.all isDigit
     | _ => false)
  | _ => false

/-- `_parse_optional` of `argparse`: no leading dash, a dash alone, a negative number or a space inside mean a value. -/
def classify (w : Str) : WordClass :=
  match w with
  | '-' :: t =>
    match optionOf w with
    | some d => .option d w none
    | none =>
      if t = [] then .value
      else if t = ['-'] then .refused
      else match (splitEq w).2, optionOf (splitEq w).1 with
        | some e, some d => .option d (splitEq w).1 (some e)
        | _, _ =>
          match abbreviated w with
          | [c] => c
          | _ :: _ :: _ => .refused
          | [] => if isNegNumber w || w.contains ' ' then .value else .refused
  | _ => .value

/-- The values before parsing, parser_arguments_declaration.py: flags `False`, `--config`, `--config_analysis`, `--setup` and
`--n_cores` `None`. -/
def CliArgs.defaults : CliArgs :=
  ⟨false, none, false, false, false, false, false, false, false, false, false, false, false, false, false, [], false, none,
    false, none, false, false⟩

/-- A flag of the command line sets its value. -/
def setFlag (d : OptDest) (a : CliArgs) : CliArgs :=
  match d with
  | .prepareImages => { a with prepareImages := true }
  | .step1 => { a with step1 := true }
  | .step2 => { a with step2 := true }
  | .step3 => { a with step3 := true }
  | .step3fast => { a with step3fast := true }
  | .restart => { a with restart := true }
  | .red => { a with red := true }
  | .green => { a with green := true }
  | .blue => { a with blue := true }
  | .rgb => { a with rgb := true }
  | .coordinates => { a with coordinates := true }
  | .analysis => { a with analysis := true }
  | .cc => { a with cc := true }
  | .demo => { a with demo := true }
  | .run => { a with run := true }
  | .acceptance => { a with acceptance := true }
  | .acceptanceDebug => { a with acceptanceDebug := true }
  | _ => a

/-- A flag with its name; the help text ends the program. -/
def raiseFlag (d : OptDest) (a : CliArgs) : Except PyErr CliArgs :=
  if d = .help then .error .systemExit else .ok (setFlag d a)

/-- `int(w)` for every word, an error is a refusal. -/
def intWords : List Str → Except PyErr (List Int)
  | [] => .ok []
  | w :: ws =>
    match pyInt w, intWords ws with
    | .ok z, .ok zs => .ok (z :: zs)
    | _, _ => .error .systemExit

/-- The words of an option are complete, parser_arguments_declaration.py 35, 81, 85, 102, 107: the number of words and, for
numbers, their notation are checked. A later occurrence replaces an earlier one, except for `--cc_channels` (`extend`). -/
def closeOption (d : OptDest) (ws : List Str) (a : CliArgs) : Except PyErr CliArgs :=
  match d with
  | .config => .ok { a with config := some ws }
  | .configAnalysis => .ok { a with configAnalysis := true }
  | .ccChannels =>
    if ws = [] then .error .systemExit
    else match intWords ws with
      | .ok zs => .ok { a with ccChannels := a.ccChannels ++ [zs] }
      | .error e => .error e
  | .setup =>
    match ws with
    | [p] => .ok { a with setup := some p }
    | _ => .error .systemExit
  | .nCores =>
    match ws with
    | [w] => match intWords [w] with
      | .ok [z] => .ok { a with nCores := some z }
      | _ => .error .systemExit
    | _ => .error .systemExit
  | _ => .ok a

/-- One-letter flags written together: the letters after the first flag. -/
def cluster : Str → CliArgs → Except PyErr CliArgs
  | [], a => .ok a
  | c :: cs, a =>
    match optionOf ['-', c] with
    | some d =>
      if d.kind = .flag then
        match raiseFlag d a with
        | .ok a' => cluster cs a'
        | .error e => .error e
      else .error .systemExit
    | none => .error .systemExit

/-- An option whose value is part of the word: refused for a flag with two dashes or an empty value; for a flag with one dash
the value is more flags; otherwise the value is the only word. -/
def withExplicit (d : OptDest) (name e : Str) (a : CliArgs) : Except PyErr CliArgs :=
  if d.kind = .flag then
    if name.take 2 = ['-', '-'] || e = [] then .error .systemExit
    else match raiseFlag d a with
      | .ok a' => cluster e a'
      | .error err => .error err
  else closeOption d [e] a

/-- Whether an option that has these words takes another one. -/
def takesMore (d : OptDest) (ws : List Str) : Bool :=
  match d.kind with
  | .flag => false
  | .star => true
  | .plus => true
  | .one => ws.isEmpty

/-- Closes the option that is being filled, if there is one. -/
def closeOpen (o : Option (OptDest × List Str)) (a : CliArgs) : Except PyErr CliArgs :=
  match o with
  | none => .ok a
  | some (d, ws) => closeOption d ws a

/-- The words one after the other; `o` is the option being filled with its words. A value that belongs to no option is
refused: no positional arguments are declared. -/
def parseWords : List Str → Option (OptDest × List Str) → CliArgs → Except PyErr CliArgs
  | [], o, a => closeOpen o a
  | w :: rest, o, a =>
    match classify w with
    | .refused => .error .systemExit
    | .value =>
      match o with
      | none => .error .systemExit
      | some (d, ws) => if takesMore d ws then parseWords rest (some (d, ws ++ [w])) a else .error .systemExit
    | .option d name explicit =>
      match closeOpen o a with
      | .error e => .error e
      | .ok a' =>
        match explicit with
        | some e =>
          match withExplicit d name e a' with
          | .ok a'' => parseWords rest none a''
          | .error err => .error err
        | none =>
          if d.kind = .flag then
            match raiseFlag d a' with
            | .ok a'' => parseWords rest none a''
            | .error err => .error err
          else parseWords rest (some (d, [])) a'

/-- `main`, __main__.py 12-43: the words are parsed before anything is done; without words the program ends. -/
def ledsaMain (argv : List Str) (hasConfig hasAna : Bool) : CliRun :=
  match parseWords argv none .defaults with
  | .error e => ([], some e)
  | .ok a => if argv.length = 0 then ([], some .systemExit) else cliMain a hasConfig hasAna

end Ledsa
