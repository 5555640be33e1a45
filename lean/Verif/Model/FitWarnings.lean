import Verif.Py.Text
/-
Model of the log of fits that did not converge, `_log_warnings`, /repo/ledsa/data_extraction/step_3_functions.py 247-280, called in
lines 154-156 by the processes that work on the photos (`Pool.imap` in /repo/ledsa/data_extraction/DataExtractor.py 231-243, 245-262).

Simplifications: a system call is one step, steps of different photos interleave arbitrarily; an entry is shorter than the write buffer and
reaches the file (opened for appending) in one piece when it is closed; nothing removes the directory `logfiles`. Exceptions other than that of
`os.makedirs` are left out. Which fits converge is arbitrary.
-/
namespace Ledsa

/-- What the work on a photo does to the shared files: an entry in the log for a fit that did not converge (lines 154-156), a result file
(DataExtractor.py 262). -/
inductive PhotoAction (E R : Type)
  | warn (e : E)
  | save (r : R)
deriving DecidableEq

/-- Position within the next action: before `os.path.exists`, before `os.makedirs`, before the file is written, stopped by an exception. -/
inductive WarnPhase
  | check
  | create
  | append
  | failed
deriving DecidableEq

/-- The work on one photo. -/
structure PhotoWork (E R : Type) where
  todo : List (PhotoAction E R)
  phase : WarnPhase
deriving DecidableEq

/-- The working directory and the work on all photos of the list. -/
structure WarnState (E R : Type) where
  /-- `logfiles` exists -/
  dir : Bool
  log : List E
  saved : List R
  tasks : List (PhotoWork E R)
deriving DecidableEq

/-- The next step of the work on photo `i`, step_3_functions.py 273-280. `os.makedirs` of an existing directory raises `FileExistsError`, `open` of a
file in a missing one `FileNotFoundError`. -/
def warnStep {E R : Type} (s : WarnState E R) (i : Nat) : WarnState E R :=
  match s.tasks[i]? with
  | none => s
  | some t =>
    match t.phase, t.todo with
    | .check, .save r :: rest => { s with saved := s.saved ++ [r], tasks := s.tasks.set i ⟨rest, .check⟩ }
    | .check, .warn _ :: _ => { s with tasks := s.tasks.set i ⟨t.todo, if s.dir then .append else .create⟩ }
    | .create, _ =>
      if s.dir then { s with tasks := s.tasks.set i ⟨t.todo, .failed⟩ }
      else { s with dir := true, tasks := s.tasks.set i ⟨t.todo, .append⟩ }
    | .append, .warn e :: rest =>
      if s.dir then { s with log := s.log ++ [e], tasks := s.tasks.set i ⟨rest, .check⟩ }
      else { s with tasks := s.tasks.set i ⟨t.todo, .failed⟩ }
    | _, _ => s

/-- The steps in the order `sched`. -/
def warnRun {E R : Type} (s : WarnState E R) (sched : List Nat) : WarnState E R := sched.foldl warnStep s

/-- Step 3 at its beginning: the plans of the photos. -/
def warnStart {E R : Type} (dir : Bool) (log : List E) (saved : List R) (plans : List (List (PhotoAction E R))) : WarnState E R :=
  ⟨dir, log, saved, plans.map fun p => ⟨p, .check⟩⟩

/-- The plan of a photo, DataExtractor.py 245-262 with step_3_functions.py 50-58 and 154-156: for every channel the LEDs of the arrays in
order; those whose fit did not converge are logged, then the result file is written. -/
def photoPlan (channels : List Nat) (skip : Nat) (arrays : List (List Nat)) (converged : Nat → Nat → Bool) :
    List (PhotoAction (Nat × Nat × Nat) Nat) :=
  channels.flatMap fun c => (arrays.zipIdx.flatMap fun a => (a.1.filter fun l => l % (skip + 1) == 0 && !converged c l).map fun l =>
    .warn (c, a.2, l)) ++ [.save c]

/-- `s.replace(a ++ b, r)` for a text of two characters. -/
def replaceTwo (a b : Char) (r : Str) : Str → Str
  | [] => []
  | [c] => [c]
  | c :: d :: t => if c = a ∧ d = b then r ++ replaceTwo a b r t else c :: replaceTwo a b r (d :: t)

/-- The parameters of the fit in an entry, step_3_functions.py 266, from `np.array_str`. -/
def fitParamText (arrayStr : Str) : Str :=
  (replaceTwo ' ' ']' [']'] (replaceTwo '[' ' ' ['['] (joinChar ' ' (splitWs arrayStr)))).map fun c => if c = ' ' then ',' else c

/-- Values of an entry in the log as texts, step_3_functions.py 269-272. -/
structure WarnEntry where
  path : Str
  led : Str
  array : Str
  params : Str
  success : Str
  fun_ : Str
  nfev : Str
  height : Str
  width : Str
  centerX : Str
  centerY : Str
  radius : Str
  cx : Str
  cy : Str
  channel : Str

/-- The values in the order of the entry. -/
def WarnEntry.fields (w : WarnEntry) : List Str :=
  [w.path, w.led, w.array, w.params, w.success, w.fun_, w.nfev, w.height, w.width, w.centerX, w.centerY, w.radius, w.cx, w.cy, w.channel]

/-- The text that is written, step_3_functions.py 269-279. -/
def WarnEntry.text (w : WarnEntry) : Str := "Irregularities while fitting:\n    ".toList ++ joinChar ' ' w.fields ++ ['\n']

end Ledsa
