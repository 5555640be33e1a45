import Verif.Model.Cli
import Verif.Model.Rename
import Verif.Model.DemoSetup
/-
How the program ends: the exit status that the shell sees, the working directory of the photo renamer, and what is done of the things that a
command line asks for. `/repo/ledsa/__main__.py` 27-43, `/repo/ledsa/tools/photo_renamer.py` 10-21 and 155-158.
Simplifications: the table of the images is a function of the directory and the two answers on file types (it may raise an exception); paths are
texts and the file system tells for each whether it is there and whether it is a directory. An action of `Model/Cli.lean` other than the
renaming ends in a way that is given. Signals are not modelled.
-/
namespace Ledsa

/-- How an action ends: it returns, raises an exception, calls `exit` with a status, or waits for an answer for ever. -/
inductive ActEnd | returned | raised | exited (status : Nat) | waiting
deriving DecidableEq, Repr

/-- What the shell sees: the exit status, or nothing as long as the program waits. -/
abbrev Status := Option Nat

/-- The actions one after the other, /repo/ledsa/__main__.py 36-43: those that returned, and the status. An exception that nobody catches gives 1.
`rest` is how the program ends after the last action. -/
def execute (how : CliAct → ActEnd) (rest : Status) : List CliAct → List CliAct × Status
  | [] => ([], rest)
  | act :: acts =>
    match how act with
    | .returned => let r := execute how rest acts; (act :: r.1, r.2)
    | .raised => ([], some 1)
    | .exited k => ([], some k)
    | .waiting => ([], none)

/-- The status after the last action: 0 at the end of the program, 2 after `parser.error` (/repo/ledsa/core/parser_arguments_run.py 125-128), 1 after
any other exception. -/
def lastStatus : Option PyErr → Status
  | none => some 0
  | some .systemExit => some 2
  | some _ => some 1

/-- A run from the parsed arguments, /repo/ledsa/__main__.py 36-43: what was completed, and the status. -/
def programRun (how : CliAct → ActEnd) (a : CliArgs) (hasConfig hasAna : Bool) : List CliAct × Status :=
  execute how (lastStatus (cliMain a hasConfig hasAna).2) (cliMain a hasConfig hasAna).1

/-- The file system as the renamer sees it. -/
structure RenameWorld (C : Type) where
  cwd : Str
  there : Str → Bool
  isDir : Str → Bool
  files : Str → Dir C
  table : Str → Str → Str → Except PyErr (List Shot)

/-- What the renamer does: the directory it works in, the files there afterwards, the directory named in a message that something does not
exist, and how it ends. -/
structure RenamerRun (C : Type) where
  dir : Str
  files : Dir C
  missing : Option Str
  ending : ActEnd

/-- End of the dialogue as end of the action, /repo/ledsa/tools/photo_renamer.py 117-149: the loop has no `break`. `exit()` gives the status 0. -/
def endOf : RenameEnd → ActEnd
  | .waiting => .waiting
  | .exited => .exited 0
  | .failed _ => .raised

/-- `set_working_dir`, /repo/ledsa/tools/photo_renamer.py 10-21: the directory afterwards, or how the program ends. `os.chdir` to something that
is not a directory raises an exception. The message names the directory that the program is in. -/
def setWorkingDir {C : Type} (w : RenameWorld C) (answer : Str) : Except (Option Str × ActEnd) Str :=
  if w.there answer then
    if w.isDir answer then .ok answer else .error (none, .raised)
  else .error (some w.cwd, .exited 0)

/-- `main` of the renamer and `run_tools_arguments`, /repo/ledsa/tools/photo_renamer.py 152-155 and /repo/ledsa/core/parser_arguments_run.py
25-28, for a list of answers: directory, image types, raw types, name, dialogue. -/
def renamer {C : Type} (w : RenameWorld C) : List Str → RenamerRun C
  | [] => ⟨w.cwd, w.files w.cwd, none, .waiting⟩
  | d :: answers =>
    match setWorkingDir w d with
    | .error (m, e) => ⟨w.cwd, w.files w.cwd, m, e⟩
    | .ok p =>
      match answers with
      | images :: raws :: more =>
        match w.table p images raws with
        | .error _ => ⟨p, w.files p, none, .raised⟩
        | .ok shots =>
          match more with
          | [] => ⟨p, w.files p, none, .waiting⟩
          | name :: dialogue =>
            let r := renameDialogue (renamePlan name shots 1) dialogue (w.files p) []
            ⟨p, r.dir, none, endOf r.ending⟩
      | _ => ⟨p, w.files p, none, .waiting⟩

/-- `main` of the acceptance tests, /repo/ledsa/tests/AcceptanceTests/__main__.py 5-10: `call` starts the tests in a process of their own and
returns its status, which is not used. Without the program `python` an exception is raised. -/
def acceptanceEnd : Option Nat → ActEnd
  | some _ => .returned
  | none => .raised

/-- End of the setup of the demo as end of the action, /repo/ledsa/demo/demo_setup.py 20-39: both refusals end in `exit(0)`. -/
def demoSetupEnd : SetupEnd → ActEnd
  | .exited => .exited 0
  | .waiting => .waiting
  | .finished => .returned

end Ledsa
