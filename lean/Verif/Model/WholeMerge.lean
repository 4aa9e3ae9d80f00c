import Verif.Model.Pipeline
import Verif.Model.Plan
import Verif.Model.Writer
import Verif.Model.MergeMethods

/-! # A merge to disk from one end to the other (`/repo/mergekit/merge.py:31-150`, `plan.py:333-363`)

Joins the models of planning (`Model/Plan.lean`), loading, gathering and saving (`Model/LoadTask.lean`), scheduling and execution
(`Model/Pipeline.lean`) and the writer (`Model/Writer.lean`) into the run `Executor(targets).execute()` of the tasks of
`MergePlanner.plan_to_disk`.  Configurations without tokenizer settings: then every merge task takes the tensors from
`GatherTensors` directly (plan.py:204-213). -/

namespace Verif.WholeMerge

open Verif.ModelRef (Str Ref)
open Verif.LoadTask (LoadTensor WeightInfo Casts Loader gatherArguments gatherExecute saveExecute)
open Verif.Plan (Planned)
open Verif.Universe (TaskSystem)

deriving instance DecidableEq for Planned

/-- The tasks of a merge to disk as values: `LoadTensor` (io/tasks.py:72-81), `GatherTensors` (133-147), a merge method's task
(merge_methods/linear.py:20-31 and the like, all with the one argument `tensors`), `TensorWriterTask` (io/tasks.py:178-194),
`SaveTensor` (197-225), `FinalizeModel` (237-255).  Fields that are the same for all tasks of a run are left out. -/
inductive Job (K : Type) where
  | load (model : Ref) (t : LoadTensor)
  | gather (ws : List (Ref × WeightInfo))
  | merge (p : Planned K)
  | writer
  | save (p : Planned K)
  | finalize (ps : List (Planned K))
deriving DecidableEq

/-- `Task.arguments()` of each: io/tasks.py:149-161, linear.py:29-30, io/tasks.py:215-219, 250-255. -/
def Job.args {K : Type} (dtype : Option String) : Job K → List (String × Job K)
  | .load _ _ => []
  | .gather ws => (gatherArguments dtype ws).map (fun e => (String.ofList e.1, .load e.2.1 e.2.2))
  | .merge p => [("tensors", .gather p.inputs)]
  | .writer => []
  | .save p => [("writer", .writer), ("tensor", .merge p)]
  | .finalize ps => ("writer", .writer) :: (ps.zipIdx.map (fun e => ("_unused_" ++ Nat.repr e.2, .save e.1)))

/-- How deep a task's arguments go; only to show that they are well founded.  [io/tasks.py:72-255] -/
def Job.rank {K : Type} : Job K → Nat
  | .load _ _ => 0
  | .gather _ => 1
  | .merge _ => 2
  | .writer => 0
  | .save _ => 3
  | .finalize _ => 4

/-- The tasks with their arguments.  [graph.py:23-57] -/
def jobs (K : Type) (dtype : Option String) : TaskSystem (Job K) where
  args := Job.args dtype
  rank := Job.rank
  rank_lt := by
    intro t a ha
    cases t with
    | load _ _ => cases ha
    | writer => cases ha
    | gather ws =>
      obtain ⟨e, _, rfl⟩ := List.mem_map.1 ha
      simp [Job.rank]
    | merge p => simp [Job.args] at ha; subst ha; simp [Job.rank]
    | save p =>
      simp [Job.args] at ha
      rcases ha with rfl | rfl <;> simp [Job.rank]
    | finalize ps =>
      rcases List.mem_cons.1 ha with rfl | ha
      · simp [Job.rank]
      · obtain ⟨e, _, rfl⟩ := List.mem_map.1 ha
        simp [Job.rank]

/-- What the tasks return.  The value of a save records what it handed to `writer.save_tensor` (`SaveTensor.execute` itself
returns nothing).  [io/tasks.py:110-126, 169-175, 227-234, 257-258] -/
inductive Val (T : Type) where
  | tensor (x : Option T)
  | dict (d : List (Ref × T))
  | saved (x : Option (String × T))
  | nothing

/-- Exceptions of a run.  [graph.py:473-504] -/
inductive RunErr (E : Type) where
  | load (e : LoadTask.Err)
  | method (e : E)
  /-- a task called with arguments it cannot use: never happens -/
  | arguments
deriving DecidableEq

/-- `**kwargs` with one name looked up.  [graph.py:473-484] -/
def kwarg {V : Type} (args : List (String × V)) (name : String) : Option V :=
  (args.find? (fun e => decide (e.1 = name))).map Prod.snd

/-- The tensors among the keyword arguments of `GatherTensors.execute`, io/tasks.py:169-175. -/
def tensorArgs {T : Type} (args : List (String × Val T)) : List (Str × Option T) :=
  args.filterMap (fun e => match e.2 with
    | .tensor x => some (e.1.toList, x)
    | _ => none)

/-- Everything about a run that is not a task: the input models, data types, the merge method (any function of what was planned and of
the gathered tensors) and the general data types of the configuration.  [plan.py:37-88, 204-236] -/
structure Setup (K T E : Type) where
  casts : Casts T
  loaders : Ref → Loader T
  /-- `config.dtype` -/
  dtype : Option String
  /-- `config.out_dtype` -/
  outDtype : Option String
  method : Planned K → List (Ref × T) → Except E (Option T)

/-- `weight.force_dtype or self.config.out_dtype`, plan.py:353. -/
def saveDtype (outDtype : Option String) (w : WeightInfo) : Option String :=
  match w.forceDtype with
  | some d => if d = "" then outDtype else some d
  | none => outDtype

/-- `Task.execute` of each task: io/tasks.py:110-126, 169-175, linear.py:32-57 and the like, io/tasks.py:196-207, 227-234, 257-258. -/
def execJob {K T E : Type} (s : Setup K T E) : Job K → List (String × Val T) → Except (RunErr E) (Val T)
  | .load m t, _ =>
    match t.execute s.casts (s.loaders m) with
    | .error e => .error (.load e)
    | .ok x => .ok (.tensor x)
  | .gather ws, args => .ok (.dict (gatherExecute ws (tensorArgs args)))
  | .merge p, args =>
    match kwarg args "tensors" with
    | some (.dict d) =>
      match s.method p d with
      | .error e => .error (.method e)
      | .ok x => .ok (.tensor x)
    | _ => .error .arguments
  | .writer, _ => .ok .nothing
  | .save p, args =>
    match kwarg args "tensor" with
    | some (.tensor x) =>
      match saveExecute s.casts (String.ofList p.weight.name) p.weight.optional (saveDtype s.outDtype p.weight) x with
      | .error e => .error (.load e)
      | .ok y => .ok (.saved y)
    | _ => .error .arguments
  | .finalize _, _ => .ok .nothing

/-- `plan_to_disk`: the save tasks and then `FinalizeModel`, plan.py:344-363. -/
def targets {K : Type} (ps : List (Planned K)) : List (Job K) := ps.map .save ++ [.finalize ps]

/-- What the tasks of a run do with the one writer, in the order they were executed: `save_tensor` and `finalize`.
[io/tasks.py:227-234, 257-258; io/tensor_writer.py:67-187] -/
def writerRun {K T : Type} (conf : Writer.Conf) (size : T → Nat) :
    Writer.Writer T → List (Job K × Val T) → List (Writer.Action T)
  | _, [] => []
  | w, (.save _, .saved (some e)) :: rest =>
    let r := Writer.saveTensor conf size w e.1 e.2
    r.2 ++ writerRun conf size r.1 rest
  | w, (.finalize _, _) :: rest =>
    let r := Writer.finalize conf w
    r.2 ++ writerRun conf size r.1 rest
  | w, _ :: rest => writerRun conf size w rest

/-! ## The linear method as the planner's parameters reach it -/

/-- Looking up in an `ImmutableMap`, common.py:127-155. -/
def lookup {A V : Type} [DecidableEq A] (d : List (A × V)) (k : A) : Option V :=
  (d.find? (fun e => decide (e.1 = k))).map Prod.snd

/-- Exceptions of a method's task.  [merge_methods/linear.py:32-57, 70-92] -/
inductive MethodErr where
  | merge (e : Tensor.Err)
  /-- `tensor_parameters[key]["weight"]` is not a number (or missing): `torch.tensor(weights)` raises -/
  | badParameter
deriving DecidableEq

/-- `tensor_parameters[key]["weight"]` as a number, linear.py:38. -/
def weightOf {K : Type} (p : Planned K) (m : Ref) : Option K :=
  match (lookup p.tensorParams m).bind (fun d => lookup d "weight".toList) with
  | some (some (.num w)) => some w
  | _ => none

/-- `if self.normalize`, linear.py:53, for the values a configuration can give (numbers are truthy unless zero, text unless empty,
absent is false). -/
def normalizeOf {K : Type} [Zero K] [DecidableEq K] (p : Planned K) : Bool :=
  match lookup p.params "normalize".toList with
  | some (some (.num n)) => decide (n ≠ 0)
  | some (some (.str s)) => decide (s ≠ [])
  | _ => false

/-- `LinearMerge.make_task(...)` and executing it, linear.py:32-57, 70-92. -/
def linearTask {K : Type} [Field K] [LinearOrder K] (p : Planned K) (ts : List (Ref × Tensor.Tensor K)) :
    Except MethodErr (Option (Tensor.Tensor K)) :=
  if ts.all (fun e => (weightOf p e.1).isSome) then
    match Merge.linear p.weight.isEmbed (normalizeOf p) (fun m => (weightOf p m).getD 0) ts with
    | .error e => .error (.merge e)
    | .ok x => .ok (some x)
  else .error .badParameter

/-! ## The passthrough method as the planner's parameters reach it -/

/-- `self.tensor_parameters[model].data.get("scale", None)` as a factor, passthrough.py:30: `none` if there is none.  A text as scale makes
`tensor * scale` raise. -/
def scaleOf {K : Type} (p : Planned K) (m : Ref) : Except MethodErr (Option K) :=
  match lookup p.tensorParams m with
  | none => .error .badParameter
  | some d =>
    match lookup d "scale".toList with
    | none => .ok none
    | some none => .ok none
    | some (some (.num x)) => .ok (some x)
    | some (some (.str _)) => .error .badParameter

/-- `PassthroughMerge.make_task(...)` and executing it, passthrough.py:25-34, 48-60. -/
def passthroughTask {K : Type} [Field K] [LinearOrder K] (p : Planned K) (ts : List (Ref × Tensor.Tensor K)) :
    Except MethodErr (Option (Tensor.Tensor K)) :=
  match ts with
  | [(m, _)] =>
    match scaleOf p m with
    | .error e => .error e
    | .ok sc =>
      match Merge.passthrough (fun _ => sc) ts with
      | .error e => .error (.merge e)
      | .ok x => .ok (some x)
  | _ => .error (.merge .count)

end Verif.WholeMerge
