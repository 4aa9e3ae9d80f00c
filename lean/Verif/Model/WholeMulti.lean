import Verif.Model.WholeTok
import Verif.Model.MultiGPU
import Verif.Model.Pipeline

/-! # A merge to disk on several devices (`/repo/mergekit/merge.py:71-76`, `multigpu_executor.py`, `io/tasks.py`)

With `multi_gpu` set, `run_merge` gives the same targets to `MultiGPUExecutor` instead of `Executor`. -/

namespace Verif.WholeMulti

open Verif.Graph Verif.MultiGPU
open Verif.Universe (Universe)
open Verif.Pipeline (graphOf universeOf toFin)
open Verif.WholeMerge (RunErr)
open Verif.WholeTok (Job Val TokSetup jobs targets execJob)

/-- `Task.main_thread_only()` of each task: `TensorWriterTask` (io/tasks.py:202-203) and `FinalizeModel` (io/tasks.py:250-251) always;
`SaveTensor` only with `force_main_thread` (io/tasks.py:224-225), which the planner leaves at `False` (plan.py:346-355); no other
task of a merge overrides the default (graph.py:103-110). -/
def mainOnly {K : Type} : Job K → Bool
  | .writer => true
  | .finalize _ => true
  | _ => false

/-- `Task.duplicate_per_gpu()`: only `LoadTensor` with `per_gpu` set (io/tasks.py:80, 140-141), which nothing in a merge does (io/tasks.py:149-161), and
the default is `False` (graph.py:112-121). -/
def perGpu {K : Type} : Job K → Bool := fun _ => false

/-- The two flags for the tasks of a universe.  [graph.py:103-121] -/
def flags {K : Type} (u : Universe (Job K)) : Flags u.tasks.length where
  mainOnly i := mainOnly (u.tasks[i.1])
  perGpu i := perGpu (u.tasks[i.1])

/-- The executions of a run that returned, in order, with what they returned: `res = task.execute(**arguments)`, graph.py:484. -/
def effects {n : Nat} {V E : Type} (exec : Fin n → List (String × V) → Except E V) : List (Event n V) → List (Fin n × V)
  | [] => []
  | .exec t as :: l =>
    match exec t as with
    | .ok v => (t, v) :: effects exec l
    | .error _ => effects exec l
  | _ :: l => effects exec l

/-- The same with the tasks themselves.  [graph.py:484] -/
def named {K : Type} {V : Type} (u : Universe (Job K)) (l : List (Fin u.tasks.length × V)) : List (Job K × V) :=
  l.map (fun e => (u.tasks[e.1.1], e.2))

/-- Python's `None`, which a worker sends in place of a result nobody after the parallel phase asks for, multigpu_executor.py:367-375; to a task it looks
like a tensor that was not found. -/
def pyNone {T I : Type} : Val T I := .tensor none

/-- `TaskUniverse(targets)`, multigpu_executor.py:88. -/
def uni {K : Type} [DecidableEq K] (dtype : Option String) (ps : List (Verif.Plan.Planned K)) : Universe (Job K) :=
  (universeOf (jobs K dtype) (targets ps)).1

/-- `self.targets`, multigpu_executor.py:89. -/
def handles {K : Type} [DecidableEq K] (dtype : Option String) (ps : List (Verif.Plan.Planned K)) : List (Fin (uni dtype ps).tasks.length) :=
  (universeOf (jobs K dtype) (targets ps)).2.filterMap (toFin (uni dtype ps).tasks.length)

/-- The tasks with their arguments, for the schedules (multigpu_executor.py:90-91 and the executors of lines 141-197, 360). -/
def graph {K : Type} [DecidableEq K] (dtype : Option String) (ps : List (Verif.Plan.Planned K)) (group : Job K → String) (prio : Job K → Int) :
    TaskGraph (uni dtype ps).tasks.length :=
  graphOf (uni dtype ps) group prio

/-- `task.execute` for a handle, graph.py:484. -/
def exec {K T E I : Type} [DecidableEq K] (s : TokSetup K T E I) (ps : List (Verif.Plan.Planned K)) :
    Fin (uni s.dtype ps).tasks.length → List (String × Val T I) → Except (RunErr E) (Val T I) :=
  fun i as => execJob s ((uni s.dtype ps).tasks[i.1]) as

end Verif.WholeMulti
