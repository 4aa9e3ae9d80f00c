import Verif.Model.MultiMerge

/-! # What running the merges of a recipe does to the disk (`/repo/mergekit/scripts/multimerge.py:28-63, 115-122`) -/

namespace Verif.MultiMerge

open Verif.ModelRef (Str)

/-- The directories that hold models, by path; `D` is what a directory holds.  [scripts/multimerge.py:39-63] -/
abbrev Disk (D : Type) := Str → Option D

/-- `run_merge(cfg, out_path, options)` as far as directories go: from the configuration, all directories, and what the output directory
held before, to what it holds afterwards and the exception raised, if any.  Any such function.  [scripts/multimerge.py:55-60, merge.py:31-150] -/
abbrev Merging (C D E : Type) := C → Disk D → Option D → Option D × Option E

/-- The configuration of a task.  [scripts/multimerge.py:29] -/
def MTask.config {C : Type} : MTask C → C
  | .mk c _ _ _ => c

/-- The output path of a task.  [scripts/multimerge.py:33] -/
def MTask.outPath {C : Type} : MTask C → Str
  | .mk _ _ o _ => o

/-- `MergeModelTask.execute`, multimerge.py:39-63: skipped if lazy and `present` (a configuration and a checkpoint file are there, 40-49),
otherwise merged. -/
def executeMerge {C D E : Type} (lazy : Bool) (present : D → Bool) (merging : Merging C D E) (disk : Disk D) (t : MTask C) : Disk D × Option E :=
  if lazy && (disk t.outPath).any present then (disk, none)
  else
    let r := merging t.config disk (disk t.outPath)
    (Function.update disk t.outPath r.1, r.2)

/-- The tasks executed one after the other until one raises, multimerge.py:119-122 (in the order of the executor, graph.py:463-501, which does not
depend on what the tasks return). -/
def executeAll {C D E : Type} (lazy : Bool) (present : D → Bool) (merging : Merging C D E) : Disk D → List (MTask C) → Disk D × Option E
  | disk, [] => (disk, none)
  | disk, t :: rest =>
    match executeMerge lazy present merging disk t with
    | (disk', none) => executeAll lazy present merging disk' rest
    | (disk', some e) => (disk', some e)

end Verif.MultiMerge
