import Verif.Model.ImageInfos
/-
Model of several runs of step 3 at the same time in one working directory (for example one run per channel in several
terminals). The runs share `analysis/image_infos_analysis.csv` and `images_to_process.csv`; their steps interleave
arbitrarily. One core per run (`num_cores = 1`); the pool within a run is `Model/Schedule.lean`.

Simplifications: a table is empty from `open(..., 'w')` until it is closed and complete from then on (text within one
buffer); the directories exist; `config.ini` has all parameters, so that every run asks for the same image table; every
photo has at least one LED (otherwise line 182 of step_3_functions.py fails). Log entries of fits are left out.
-/
namespace Ledsa

/-- What the runs share. `images_to_process.csv` can be removed while another run has it open: it carries the number of
the file behind the name (`next` is the next unused number). -/
structure SharedFiles where
  /-- rows of `analysis/image_infos_analysis.csv`, `none` if it does not exist -/
  infos : Option (List InfoRow)
  /-- file number and lines of `images_to_process.csv` -/
  list : Option (Nat × List Str)
  next : Nat
  /-- result file of a channel and an image id -/
  result : Nat → Nat → Option Str

/-- What does not depend on the interleaving. -/
structure SharedEnv where
  /-- the image table the configuration asks for (`_build_img_data_string`) -/
  infos : List InfoRow
  /-- `_create_header`: channel, image id, image name, time column -/
  header : Nat → Nat → Str → Str → Str
  /-- `generate_analysis_data`: lines of the LEDs in a channel of a photo, `none` for an exception -/
  lines : Nat → Str → Option Str

/-- The image and channel a run is working on, with the channels and photos that follow. -/
structure PhotoTask where
  photo : Str
  id : Nat
  chan : Nat
  chans : List Nat
  todo : List Str
deriving DecidableEq

/-- Where a run is. -/
inductive ExtractRun
  | openInfos
  | writeInfos
  | readInfos
  | openList (names : List Str)
  | writeList (names : List Str) (file : Nat)
  | readList
  | photos (todo : List Str)
  | measure (k : PhotoTask)
  | readTable (k : PhotoTask) (text : Str)
  | readName (k : PhotoTask) (text : Str) (rows : List InfoRow)
  | openResult (k : PhotoTask) (text : Str) (rows : List InfoRow) (name : Str)
  | writeResult (k : PhotoTask) (text : Str) (rows : List InfoRow) (name : Str)
  | ended
  | failed (e : PyErr)
deriving DecidableEq

/-- After a channel: the next channel of the photo, or the next photo,
/repo/ledsa/data_extraction/DataExtractor.py 253-258. -/
def nextChannel (photo : Str) (id : Nat) (todo : List Str) : List Nat → ExtractRun
  | [] => .photos todo
  | c :: cs => .measure ⟨photo, id, c, cs, todo⟩

/-- Content of a result file after writing. -/
def SharedFiles.put (s : SharedFiles) (c i : Nat) (text : Str) : SharedFiles :=
  { s with result := fun c' i' => if c' = c ∧ i' = i then some text else s.result c' i' }

/-- One step of a run with the channels `cs`: `setup_step3` (/repo/ledsa/data_extraction/DataExtractor.py 259-264 with
`_save_analysis_infos`, /repo/ledsa/data_extraction/init_functions.py 210-221, and `create_imgs_to_process_file`,
/repo/ledsa/data_extraction/step_3_functions.py 79-90), then `process_image_data` and `process_img_file`
(/repo/ledsa/data_extraction/DataExtractor.py 217-258 with `get_img_id`, `get_img_name`,
/repo/ledsa/core/image_handling.py 6-39, and `create_fit_result_file`, `_save_results_in_file`, `_create_header`,
/repo/ledsa/data_extraction/step_3_functions.py 58-76, 165-188, 283-312), then the removal of the list (line 243). An empty
table has no column 1 (`IndexError`). -/
def ExtractRun.step (env : SharedEnv) (cs : List Nat) (s : SharedFiles) : ExtractRun → SharedFiles × ExtractRun
  | .openInfos => ({ s with infos := some [] }, .writeInfos)
  | .writeInfos => ({ s with infos := some env.infos }, .readInfos)
  | .readInfos => match s.infos with
    | none => (s, .failed .fileNotFound)
    | some [] => (s, .failed .indexError)
    | some (r :: rows) => (s, .openList ((r :: rows).map (·.name)))
  | .openList names => match s.list with
    | some (f, _) => ({ s with list := some (f, []) }, .writeList names f)
    | none => ({ s with list := some (s.next, []), next := s.next + 1 }, .writeList names s.next)
  | .writeList names f => match s.list with
    | some (g, l) => (if g = f then { s with list := some (f, names) } else { s with list := some (g, l) }, .readList)
    | none => (s, .readList)
  | .readList => match s.list with
    | none => (s, .failed .fileNotFound)
    | some (_, l) => (s, .photos l)
  | .photos [] => match s.list with
    | none => (s, .failed .fileNotFound)
    | some _ => ({ s with list := none }, .ended)
  | .photos (p :: todo) => match s.infos with
    | none => (s, .failed .fileNotFound)
    | some [] => (s, .failed .indexError)
    | some rows => match rows.find? (fun r => r.name = p) with
      | none => (s, .failed .nameError)
      | some r => (s, nextChannel p r.idx todo cs)
  | .measure k => match env.lines k.chan k.photo with
    | none => (s, .failed .valueError)
    | some t => (s, .readTable k t)
  | .readTable k t => match s.infos with
    | none => (s, .failed .fileNotFound)
    | some rows => (s, .readName k t rows)
  | .readName k t rows => match s.infos with
    | none => (s, .failed .fileNotFound)
    | some [] => (s, .failed .indexError)
    | some rows' => match rows'.find? (fun r => r.idx = k.id) with
      | none => (s, .failed .nameError)
      | some r => (s, .openResult k t rows r.name)
  | .openResult k t rows name => (s.put k.chan k.id [], .writeResult k t rows name)
  | .writeResult k t rows name => match rows[k.id - 1]? with
    | none => (s, .failed .indexError)
    | some r => (s.put k.chan k.id (env.header k.chan k.id name r.expTime ++ t), nextChannel k.photo k.id k.todo k.chans)
  | .ended => (s, .ended)
  | .failed e => (s, .failed e)

/-- The shared files and all runs with their channels. -/
structure Extracting where
  files : SharedFiles
  runs : List (List Nat × ExtractRun)

/-- The runs are started; nothing has been done yet. -/
def Extracting.start (s : SharedFiles) (channels : List (List Nat)) : Extracting := ⟨s, channels.map fun cs => (cs, .openInfos)⟩

/-- The operating system lets run `i` do a step. -/
def Extracting.step (env : SharedEnv) (st : Extracting) (i : Nat) : Extracting :=
  match st.runs[i]? with
  | none => st
  | some (cs, r) => ⟨(r.step env cs st.files).1, st.runs.set i (cs, (r.step env cs st.files).2)⟩

/-- Any interleaving: the numbers of the runs in the order of their steps. -/
def Extracting.exec (env : SharedEnv) (st : Extracting) (schedule : List Nat) : Extracting := schedule.foldl (Extracting.step env) st

/-- The run is writing one of the two tables. -/
def ExtractRun.writing : ExtractRun → Bool
  | .writeInfos => true
  | .writeList _ _ => true
  | _ => false

/-- Like `Extracting.step`, but a table is opened and written without interruption. -/
def Extracting.turn (env : SharedEnv) (st : Extracting) (i : Nat) : Extracting :=
  match (st.step env i).runs[i]? with
  | some (_, r) => if r.writing then (st.step env i).step env i else st.step env i
  | none => st.step env i

/-- Any interleaving in which tables are written without interruption. -/
def Extracting.turns (env : SharedEnv) (st : Extracting) (schedule : List Nat) : Extracting := schedule.foldl (Extracting.turn env) st

end Ledsa
