import Verif.Py.Text
/-
Model of the effects of step 3 on the file system: one result file per image and channel, worker processes, interruption
and restart. The contents of the result files are parameters (`Step3Env`); how they are computed is `Model/Step3.lean`.
-/
namespace Ledsa

/-! ### Files -/

/-- A file system: path and content, the first entry of a path counts. -/
abbrev FileStore := List (Str × Str)

/-- Content of a file, `none` if it does not exist. -/
def FileStore.get (s : FileStore) (p : Str) : Option Str := (s.find? (fun e => e.1 = p)).map (·.2)

/-- Effects: `open(p, 'w')` and a write of a piece of text (`open(p, 'a')` + write for the log file). -/
inductive FileOp
  | truncate (p : Str)
  | append (p : Str) (text : Str)
deriving DecidableEq, Repr

/-- The file an effect concerns. -/
def FileOp.path : FileOp → Str
  | .truncate p => p
  | .append p _ => p

/-- New content of the file concerned. -/
def FileOp.content (old : Option Str) : FileOp → Str
  | .truncate _ => []
  | .append _ t => old.getD [] ++ t

/-- Effect of one operation. -/
def FileStore.exec1 (s : FileStore) (o : FileOp) : FileStore := (o.path, o.content (s.get o.path)) :: s

/-- Effect of a sequence of operations. -/
def FileStore.exec (s : FileStore) (ops : List FileOp) : FileStore := ops.foldl FileStore.exec1 s

/-! ### Result files -/

/-- `analysis/channel{c}/`. -/
def channelDir (c : Nat) : Str := "analysis/channel".toList ++ natStr c ++ ['/']

/-- `{img_id}_led_positions.csv`. -/
def resultName (i : Nat) : Str := natStr i ++ "_led_positions.csv".toList

/-- Path of a result file, /repo/ledsa/data_extraction/step_3_functions.py 180. -/
def resultPath (c i : Nat) : Str := channelDir c ++ resultName i

/-- The shared log of unsuccessful fits, /repo/ledsa/data_extraction/step_3_functions.py 272-276. -/
def logPath : Str := "logfiles/warnings.log".toList

/-- What step 3 computes for an image and a channel, with or without fit. -/
structure Step3Env where
  /-- header line(s) of the result file -/
  header : Bool → Nat → Nat → Str
  /-- one line per LED, or the exception of `generate_analysis_data` -/
  rows : Bool → Nat → Nat → Except PyErr (List Str)
  /-- log entries of the unsuccessful fits -/
  logs : Nat → Nat → List Str

/-- The effects of processing one image and whether it ended without exception. -/
abbrev ImgTask := List FileOp × Bool

/-- `process_img_file`, /repo/ledsa/data_extraction/DataExtractor.py 245-258, with `generate_analysis_data` (log entries
only when fitting) and `_save_results_in_file`, /repo/ledsa/data_extraction/step_3_functions.py 165-188: the file is
opened for writing before `img_data[0]` is evaluated (line 182), which fails without rows. Log entries written before an
exception of `generate_analysis_data` are not distinguished. -/
def imgTask (env : Step3Env) (fit : Bool) : List Nat → Nat → ImgTask
  | [], _ => ([], true)
  | c :: cs, i =>
    let logs := if fit then (env.logs c i).map (FileOp.append logPath) else []
    match env.rows fit c i with
    | .error _ => (logs, false)
    | .ok [] => (logs ++ [.truncate (resultPath c i)], false)
    | .ok rows =>
      let rest := imgTask env fit cs i
      (logs ++ .truncate (resultPath c i) :: .append (resultPath c i) (env.header fit c i) ::
        (rows.map (FileOp.append (resultPath c i)) ++ rest.1), rest.2)

/-- Processing on one core, /repo/ledsa/data_extraction/DataExtractor.py 239-241: the first exception ends the run. -/
def serialOps : List ImgTask → List FileOp
  | [] => []
  | t :: ts => if t.2 then t.1 ++ serialOps ts else t.1

/-- Processing with a pool of `k` workers, /repo/ledsa/data_extraction/DataExtractor.py 233-238 (`Pool.imap`): pending
images are started in order as workers are free; the effects of the running images interleave arbitrarily. A run with
pending images, running images and the effects that still follow. -/
inductive PoolRun (k : Nat) : List (List FileOp) → List (List FileOp) → List FileOp → Prop
  | done : PoolRun k [] [] []
  | start {t pending active tr} : active.length < k → PoolRun k pending (active ++ [t]) tr →
      PoolRun k (t :: pending) active tr
  | exec {pending a1 a2 op rest tr} : PoolRun k pending (a1 ++ rest :: a2) tr →
      PoolRun k pending (a1 ++ (op :: rest) :: a2) (op :: tr)
  | finish {pending a1 a2 tr} : PoolRun k pending (a1 ++ a2) tr → PoolRun k pending (a1 ++ [] :: a2) tr

/-! ### Restart -/

/-- One attempt of `re.search(r"(\d+)_led_positions.csv", name)` at the start of the text. (`.` matches any character
but a line end.) -/
def matchResultName (s : Str) : Option Nat :=
  let d := s.takeWhile isDigit
  let r := s.dropWhile isDigit
  if d = [] then none
  else if "_led_positions".toList.isPrefixOf r then
    match r.drop 14 with
    | x :: 'c' :: 's' :: 'v' :: _ => if x = '\n' then none else parseNat d
    | _ => none
  else none

/-- `re.search(...)` and `int(img.group(1))`, /repo/ledsa/data_extraction/step_3_functions.py 203-205. -/
def searchResultName : Str → Option Nat
  | [] => none
  | c :: s => match matchResultName (c :: s) with
    | some n => some n
    | none => searchResultName s

/-- `os.listdir(analysis/channel{c})`. -/
def listDir (s : FileStore) (c : Nat) : List Str :=
  (s.filter fun e => (channelDir c).isPrefixOf e.1 && !((e.1.drop (channelDir c).length).contains '/')).map
    fun e => e.1.drop (channelDir c).length

/-- `_find_analysed_img_ids`, /repo/ledsa/data_extraction/step_3_functions.py 191-206. -/
def analysedIds (s : FileStore) (c : Nat) : List Nat := (listDir s c).filterMap searchResultName

/-- `find_and_save_not_analysed_imgs`, /repo/ledsa/data_extraction/step_3_functions.py 93-107, on image ids: `infos` are
the ids of `image_infos_analysis.csv` (its names are assumed distinct). An analysed id that is not listed makes
`get_img_name` fail. The result is a Python `set`: its order is not determined. -/
def notAnalysed (s : FileStore) (infos : List Nat) (c : Nat) : Except PyErr (List Nat) :=
  if ∀ i ∈ analysedIds s c, i ∈ infos then .ok (infos.filter (fun i => i ∉ analysedIds s c)) else .error .nameError

/-- The images a restart processes, /repo/ledsa/data_extraction/DataExtractor.py 266-273: only the first channel is
examined. -/
def restartIds (s : FileStore) (infos : List Nat) (channels : List Nat) : Except PyErr (List Nat) :=
  match channels with
  | [] => .error .indexError
  | c :: _ => notAnalysed s infos c

/-- A restart with `k` workers leaves `s'`: `--restart` never fits, /repo/ledsa/core/parser_arguments_run.py 90-94. -/
def RestartRun (env : Step3Env) (infos channels : List Nat) (k : Nat) (s s' : FileStore) : Prop :=
  ∃ (ids order : List Nat) (tr : List FileOp), restartIds s infos channels = .ok ids ∧ order.Perm ids ∧
    PoolRun k (order.map fun i => (imgTask env false channels i).1) [] tr ∧ s' = s.exec tr

end Ledsa
