import Verif.Model.WholeMerge

/-! # Where tensors are during a run (`/repo/mergekit/graph.py:407-545`, `merge.py:71-81`)

The executor moves tensors before and after each task.  `Model/Graph.lean` leaves this out; here it is put around `Task.execute`. -/

namespace Verif.Devices

open Verif.Universe (TaskSystem)
open Verif.Graph (PopOracle Event Outcome)
open Verif.Pipeline (runTasks universeOf)

/-- Values as `_move_tensors` tells them apart: tensors (on a device `D`), `dict`, `list`, `tuple` and everything else - numbers, `None`,
and objects of other classes whatever they contain.  [graph.py:528-545] -/
inductive PyVal (D T A : Type) where
  | tensor (device : D) (x : T)
  | dict (es : List (A × PyVal D T A))
  | list (vs : List (PyVal D T A))
  | tuple (vs : List (PyVal D T A))
  | other (a : A)

section
variable {D T A : Type} [DecidableEq D]

mutual
/-- `_move_tensors`, graph.py:528-545 (`non_blocking` does not change what is computed). -/
def move (d : D) : PyVal D T A → PyVal D T A
  | .tensor e x => if e = d then .tensor e x else .tensor d x
  | .dict es => .dict (moveDict d es)
  | .list vs => .list (moveList d vs)
  | .tuple vs => .tuple (moveList d vs)
  | .other a => .other a

/-- The comprehensions over a list and a tuple, graph.py:541-544. -/
def moveList (d : D) : List (PyVal D T A) → List (PyVal D T A)
  | [] => []
  | v :: vs => move d v :: moveList d vs

/-- The comprehension over a dict, graph.py:537-540. -/
def moveDict (d : D) : List (A × PyVal D T A) → List (A × PyVal D T A)
  | [] => []
  | (k, v) :: es => (k, move d v) :: moveDict d es
end

end

section
variable {J V E D : Type}

/-- One turn of the loop of `Executor._run`, graph.py:470-486: the arguments of a task that uses accelerators are moved to the device for
computations, and the result of every task to the device for storage.  `mv` moves the values of this run. -/
def execOn (mv : D → V → V) (uses : J → Bool) (math storage : D) (exec : J → List (String × V) → Except E V)
    (t : J) (args : List (String × V)) : Except E V :=
  match exec t (if uses t then args.map (fun e => (e.1, mv math e.2)) else args) with
  | .error e => .error e
  | .ok v => .ok (mv storage v)

/-- `Executor(targets, math_device, storage_device)` and exhausting `_run`, graph.py:407-504. -/
def runOn [DecidableEq J] (S : TaskSystem J) (group : J → String) (prio : J → Int) (mv : D → V → V) (uses : J → Bool) (math storage : D)
    (exec : J → List (String × V) → Except E V) (pop : ∀ n, PopOracle n) (targets : List J) :
    Option (List (Event (universeOf S targets).1.tasks.length V) × Outcome (universeOf S targets).1.tasks.length E) :=
  runTasks S group prio (execOn mv uses math storage exec) pop targets

end

/-! ## Merges to disk -/

/-- `options.device` and the storage device of a merge on one device, merge.py:77-81. -/
def storageOf {D : Type} (cpu device : D) (lowCpuMemory : Bool) : D := if lowCpuMemory then device else cpu

/-- Moving what the tasks of a merge to disk return, graph.py:528-545: tensors and the values of dicts.  (What a save task handed to the
writer is recorded in its value, but not returned by the task, and not moved.) -/
def moveVal {D T : Type} (d : D) : WholeMerge.Val (D × T) → WholeMerge.Val (D × T)
  | .tensor x => .tensor (x.map (fun y => (d, y.2)))
  | .dict es => .dict (es.map (fun e => (e.1, (d, e.2.2))))
  | .saved x => .saved x
  | .nothing => .nothing

/-- `uses_accelerator`: the tasks of the merge methods say yes (merge_methods/linear.py:26-27 and the like; `PassthroughMergeTask` says no, as
`Task` does, graph.py:90-98), the others no. -/
def usesAccelerator {K : Type} (method : Bool) : WholeMerge.Job K → Bool
  | .merge _ => method
  | _ => false

/-- What is read from a tensor that goes into a file: its elements, not where it was.  [io/tensor_writer.py:67-86] -/
def contents {D T : Type} : WholeMerge.Val (D × T) → WholeMerge.Val T
  | .tensor x => .tensor (x.map Prod.snd)
  | .dict es => .dict (es.map (fun e => (e.1, e.2.2)))
  | .saved x => .saved (x.map (fun e => (e.1, e.2.2)))
  | .nothing => .nothing

/-! ## Tensors in one piece of memory -/

/-- `safetensors.torch.save_file`: refuses tensors that share memory (`shares` tells from the places `M` in memory).  [tensor_writer.py:201-206] -/
def saveFile {M T : Type} (shares : List M → Bool) (shard : List (String × (M × T))) : Option (List (String × T)) :=
  if shares (shard.map (fun e => e.2.1)) then none else some (shard.map (fun e => (e.1, e.2.2)))

/-- `_save_st`, tensor_writer.py:200-224: if saving is refused because of shared memory, all tensors of the shard are copied to memory of their
own - `copy` gives the places of the copies - and saved again.  (Other exceptions of `save_file` are left out.) -/
def saveSt {M T : Type} (shares : List M → Bool) (copy : List M → List M) (shard : List (String × (M × T))) : Option (List (String × T)) :=
  match saveFile shares shard with
  | some f => some f
  | none => saveFile shares ((shard.zip (copy (shard.map (fun e => e.2.1)))).map (fun e => (e.1.1, (e.2, e.1.2.2))))

/-- `save_tensor(..., clone=True)`: the tensor goes to memory of its own when it is saved.  [io/tensor_writer.py:67-72] -/
def saveCloned {M T : Type} (fresh : Nat → M) (saves : List (String × (M × T))) : List (String × (M × T)) :=
  saves.zipIdx.map (fun e => (e.1.1, (fresh e.2, e.1.2.2)))

end Verif.Devices
