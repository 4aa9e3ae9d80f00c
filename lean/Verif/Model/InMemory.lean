import Verif.Model.WholeTok
import Verif.Model.Evolve

/-! # A merge in memory (`/repo/mergekit/plan.py:365-375`, `io/tasks.py:254-274`, `evo/actors.py:258-336`)

`InMemoryMergeEvaluator` plans as a merge to disk does, but with `ReturnTensor` tasks as targets in place of `SaveTensor`, `FinalizeModel` and the
tokenizer's; the tensors it is handed are copied into the parameters of a model it keeps. -/

namespace Verif.InMemory

open Verif.ModelRef (Str)
open Verif.LoadTask (Casts dtypeFromName)
open Verif.Plan (Planned)
open Verif.Universe (TaskSystem)
open Verif.WholeMerge (RunErr kwarg saveDtype)

/-- The tasks below the targets (`J`: those of a merge with or without a tokenizer), and `ReturnTensor` with the planned weight, io/tasks.py:254-257. -/
inductive Job (J K : Type) where
  | inner (j : J)
  | ret (p : Planned K)
deriving DecidableEq

/-- `ReturnTensor.arguments()`, io/tasks.py:259-260; the others as before. -/
def Job.args {J K : Type} (S : TaskSystem J) (merge : Planned K → J) : Job J K → List (String × Job J K)
  | .inner j => (S.args j).map (fun a => (a.1, .inner a.2))
  | .ret p => [("tensor", .inner (merge p))]

/-- The tasks with their arguments.  [graph.py:23-57; io/tasks.py:259-260] -/
def jobs {J : Type} (K : Type) (S : TaskSystem J) (merge : Planned K → J) : TaskSystem (Job J K) where
  args := Job.args S merge
  rank t := match t with
    | .inner j => S.rank j
    | .ret p => S.rank (merge p) + 1
  rank_lt := by
    intro t a ha
    cases t with
    | inner j =>
      obtain ⟨b, hb, rfl⟩ := List.mem_map.1 ha
      exact S.rank_lt j b hb
    | ret p =>
      rw [List.mem_singleton.1 ha]
      simp

/-- Exceptions of `ReturnTensor.execute`.  [io/tasks.py:268-274] -/
inductive ReturnErr where
  /-- "Unimplemented dtype", common.py:243 -/
  | badDtype
  /-- `None.dtype`: `AttributeError` -/
  | noTensor
deriving DecidableEq

/-- `ReturnTensor.execute`, io/tasks.py:268-274. -/
def returnExecute {T : Type} (c : Casts T) (dtype : Option String) (x : Option T) : Except ReturnErr (Option T) :=
  match dtype with
  | none => .ok x
  | some n =>
    if n = "" then .ok x
    else match dtypeFromName n with
      | .error _ => .error .badDtype
      | .ok d =>
        match x with
        | none => .error .noTensor
        | some y => if d ≠ c.dtypeOf y then .ok (some (c.cast d y)) else .ok (some y)

/-- Exceptions of a run in memory.  [graph.py:473-504] -/
inductive Err (E : Type) where
  | run (e : RunErr E)
  | ret (e : ReturnErr)
deriving DecidableEq

/-- `Task.execute` of each: io/tasks.py:268-274 for `ReturnTensor` (`tensorOf` and `ofTensor` say how values of type `V` are tensors or `None`),
`execute` for the others. -/
def execJob {J K T V E : Type} (execute : J → List (String × V) → Except (RunErr E) V) (tensorOf : V → Option (Option T)) (ofTensor : Option T → V)
    (c : Casts T) (outDtype : Option String) : Job J K → List (String × V) → Except (Err E) V
  | .inner j, args =>
    match execute j args with
    | .error e => .error (.run e)
    | .ok v => .ok v
  | .ret p, args =>
    match (kwarg args "tensor").bind tensorOf with
    | none => .error (.run .arguments)
    | some x =>
      match returnExecute c (saveDtype outDtype p.weight) x with
      | .error e => .error (.ret e)
      | .ok y => .ok (ofTensor y)

/-- `plan_in_memory`, plan.py:365-375. -/
def targets {J K : Type} (ps : List (Planned K)) : List (Job J K) := ps.map .ret

/-- The tensors a run handed out, under the names of their weights, evo/actors.py:314-319: `none` if one of the values is not a tensor, on which
`copy_` raises. -/
def returned {J K T V : Type} (tensorOf : V → Option (Option T)) : List (Job J K × V) → Option (List (Str × T))
  | [] => some []
  | (.inner _, _) :: _ => none
  | (.ret p, v) :: rest =>
    match tensorOf v with
    | some (some x) => (returned tensorOf rest).map (fun l => (p.weight.name, x) :: l)
    | _ => none

/-- What `InMemoryMergeEvaluator.evaluate` does with what it is handed, evo/actors.py:314-336, for a model without packed parameters: the parameters the
evaluation sees, or `none` if an exception was raised.  Tensors are copied while the run goes on; here they are copied after it, which is the same for
a run that ends.  `copy_` also converts to the parameter's type, and needs its shape (both are left out). -/
def copied {J K T V : Type} (tensorOf : V → Option (Option T)) (l : List (Job J K × V)) (params : List (Str × T)) : Option (List (Str × T)) :=
  (returned tensorOf l).bind (fun m => Evolve.load m params)

/-- A value as a tensor or `None`, for merges without a tokenizer.  [io/tasks.py:268] -/
def tensorOf {T : Type} : WholeMerge.Val T → Option (Option T)
  | .tensor x => some x
  | _ => none

/-- A value as a tensor or `None`, for merges with a tokenizer.  [io/tasks.py:268] -/
def tokTensorOf {T I : Type} : WholeTok.Val T I → Option (Option T)
  | .tensor x => some x
  | _ => none

end Verif.InMemory
