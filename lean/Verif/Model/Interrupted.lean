import Verif.Model.Session
/-
Model of steps 1 and 2 that may be killed at any moment: the changes of files in their order, and the state of the files after a kill.
A file that is being written when the program is killed contains the beginning of its text. The flag file is empty, so setting and
removing it cannot be done halfway.
-/
namespace Ledsa

/-- A change of the files: the search areas (`write_search_areas`, /repo/ledsa/data_extraction/DataExtractor.py 77-88), the flag
`reorder_leds` (/repo/ledsa/core/file_handling.py 11-45), an index file (/repo/ledsa/data_extraction/step_2_functions.py 302-307). -/
inductive DiskOp
  | areas (text : Str)
  | flag (b : Bool)
  | index (name text : Str)

/-- The change, /repo/ledsa/data_extraction/DataExtractor.py 77-88, /repo/ledsa/core/file_handling.py 11-45. A file opened with `w` is replaced. -/
def DiskOp.exec (d : ExtDisk) : DiskOp → ExtDisk
  | .areas text => { d with areas := some text }
  | .flag b => { d with flag := b }
  | .index name text => { d with index := fun n => if n = name then some text else d.index n }

/-- The change if the program is killed while it writes (files opened with `w` in the functions of `DiskOp`): the beginning of the text. -/
def DiskOp.torn (cut : ℕ) : DiskOp → List DiskOp
  | .areas text => [.areas (text.take cut)]
  | .flag _ => []
  | .index name text => [.index name (text.take cut)]

/-- `generate_led_array_indices_files`, /repo/ledsa/data_extraction/step_2_functions.py 289-313: one file after the other. -/
def indexOps (ext : Str) (arrays : List (List ℕ)) : List DiskOp :=
  (List.range arrays.length).map fun i => .index (indexFileName i ext) (indexFile ((arrays[i]?).getD []))

/-- Step 1, /repo/ledsa/data_extraction/DataExtractor.py 108-111, see `runStep1`. -/
def step1Script (t : LedTable) : List DiskOp := if t = [] then [.areas (tableText false t)] else [.areas (tableText false t), .flag false]

/-- Step 2 with a table in memory, /repo/ledsa/data_extraction/DataExtractor.py 161-177, see `matchTable`. -/
def matchScript {D : Type} [LinearOrder D] [Add D] [Mul D] (m : Metric D) (o : Step2Options) (t : LedTable) : List DiskOp :=
  match arraysOf m o t with
  | .error _ => []
  | .ok arrays =>
    match reorderSearchAreas t arrays with
    | .error _ => []
    | .ok t' =>
      if t' = [] then [.areas (tableText true t')]
      else [.areas (tableText true t'), .flag true] ++ indexOps [] (reorderIndices arrays) ++
        match o.groups with
        | none => []
        | some g => indexOps "_merge".toList (mergeArrays (reorderIndices arrays) g)

/-- The changes of an invocation, which depend on the files that it finds, /repo/ledsa/core/parser_arguments_run.py 73-88 and
/repo/ledsa/data_extraction/DataExtractor.py 84-111, 153-181. -/
def ExtCmd.script {D : Type} [LinearOrder D] [Add D] [Mul D] (maxLoc : Image ℚ → ℕ × ℕ) (m : Metric D) (d : ExtDisk) : ExtCmd → List DiskOp
  | .step1 j => step1Script (j.table maxLoc)
  | .step2 o =>
    if d.flag then []
    else match d.areas with
      | none => []
      | some text =>
        match loadTable text with
        | .error _ => []
        | .ok t => if t.length ≤ 1 then [] else matchScript m o t
  | .steps12 j o => step1Script (j.table maxLoc) ++ if j.table maxLoc = [] then [] else matchScript m o (j.table maxLoc)

/-- An invocation (/repo/ledsa/core/parser_arguments_run.py 73-88) that may be killed: after some changes, in the middle of the next. -/
structure ExtRun where
  cmd : ExtCmd
  kill : Option (ℕ × ℕ)

/-- The files after the invocation, /repo/ledsa/core/parser_arguments_run.py 73-88, complete or killed. -/
def ExtRun.exec {D : Type} [LinearOrder D] [Add D] [Mul D] (maxLoc : Image ℚ → ℕ × ℕ) (m : Metric D) (d : ExtDisk) (r : ExtRun) : ExtDisk :=
  let ops := r.cmd.script maxLoc m d
  match r.kill with
  | none => ops.foldl DiskOp.exec d
  | some (k, cut) => (ops.take k ++ ((ops[k]?).map (DiskOp.torn cut)).getD []).foldl DiskOp.exec d

/-- The files after a sequence of invocations, /repo/ledsa/core/parser_arguments_run.py 73-88. -/
def runKilled {D : Type} [LinearOrder D] [Add D] [Mul D] (maxLoc : Image ℚ → ℕ × ℕ) (m : Metric D) (d : ExtDisk) (rs : List ExtRun) : ExtDisk :=
  rs.foldl (ExtRun.exec maxLoc m) d

end Ledsa
