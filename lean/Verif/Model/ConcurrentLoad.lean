import Verif.Model.Binary
/-
Model of several analyses at the same time in one working directory (for example one per channel in several terminals), as far
as the binary files of the measured values are concerned. The steps of the programs interleave arbitrarily.

Simplifications: looking for a binary file, writing one and reading one are single steps (a program that opens a file while
another one writes it is not modelled; the library locks the file then and raises an exception). Every program is new: it has
not looked up the coordinates before. Only the first access of a program to a channel is modelled; the binary file exists then.
-/
namespace Ledsa

/-- Where a program is with `read_hdf` of its channel. -/
inductive LoadRun
  | look
  | build
  | append (f : DataTable)
  | read
  | loaded (f : DataTable)
  | failed (e : PyErr)
deriving DecidableEq

/-- One step of `read_hdf` and `create_binary_data`, /repo/ledsa/core/file_handling.py 116-143 and 220-274: is there a binary
file; the table from the result files; the table appended to the file; the file read. -/
def LoadRun.step (w : HdfWorld) (ch : ℕ) : LoadRun → HdfWorld × LoadRun
  | .look => match w.binary w.cwd ch with
    | some f => (w, .loaded f)
    | none => (w, .build)
  | .build => match (newFrame w ch).1 with
    | .error e => (w, .failed e)
    | .ok f => (w, .append f)
  | .append f => match w.binary w.cwd ch with
    | none => (w.setBinary w.cwd ch f, .read)
    | some g => if f.cols = g.cols then (w.setBinary w.cwd ch ⟨g.cols, g.rows ++ f.rows⟩, .read) else (w, .failed .valueError)
  | .read => match w.binary w.cwd ch with
    | some f => (w, .loaded f)
    | none => (w, .failed .fileNotFound)
  | .loaded f => (w, .loaded f)
  | .failed e => (w, .failed e)

/-- The files and the programs with their channels. -/
structure Loading where
  world : HdfWorld
  runs : List (ℕ × LoadRun)

/-- The programs are started. -/
def Loading.start (w : HdfWorld) (channels : List ℕ) : Loading := ⟨w, channels.map fun ch => (ch, .look)⟩

/-- The operating system lets program `i` do a step. -/
def Loading.step (st : Loading) (i : ℕ) : Loading :=
  match st.runs[i]? with
  | none => st
  | some (ch, r) => ⟨(r.step st.world ch).1, st.runs.set i (ch, (r.step st.world ch).2)⟩

/-- Any interleaving: the numbers of the programs in the order of their steps. -/
def Loading.exec (st : Loading) (schedule : List ℕ) : Loading := schedule.foldl Loading.step st

end Ledsa
