import Verif.Model.WholeMerge
import Verif.Model.Tokenizer

/-! # A merge to disk that also builds a tokenizer (`/repo/mergekit/plan.py:53-71, 204-236, 333-363`, `merge.py:78-149`)

With `tokenizer_source` (or `tokenizer`) set, the planner makes one task `BuildTokenizer`, lets the merge of every embedding take its tensors
from `PermutedEmbeddings` instead of `GatherTensors`, and appends the tokenizer task to the targets. -/

namespace Verif.WholeTok

open Verif.ModelRef (Str Ref)
open Verif.LoadTask (LoadTensor WeightInfo gatherArguments gatherExecute saveExecute)
open Verif.Plan (Planned)
open Verif.Universe (TaskSystem)
open Verif.WholeMerge (Setup RunErr kwarg saveDtype)

/-- The tasks of `WholeMerge.Job` with `BuildTokenizer` (tokenizer/build.py:280-301) and `PermutedEmbeddings`
(tokenizer/embed.py:20-28), of which only the fields that may differ within a run are kept: the gathered weights and the base model. -/
inductive Job (K : Type) where
  | load (model : Ref) (t : LoadTensor)
  | gather (ws : List (Ref × WeightInfo))
  | tokenizer
  | permuted (ws : List (Ref × WeightInfo)) (base : Option Ref)
  | merge (p : Planned K)
  | writer
  | save (p : Planned K)
  | finalize (ps : List (Planned K))
deriving DecidableEq

/-- `tensor_input_task`, plan.py:210-224. -/
def inputTask {K : Type} (p : Planned K) : Job K :=
  if p.weight.isEmbed then .permuted p.inputs p.baseModel else .gather p.inputs

/-- `Task.arguments()` of each: io/tasks.py:149-161, tokenizer/build.py:287-288, tokenizer/embed.py:27-28, merge_methods/linear.py:29-30,
io/tasks.py:215-219, 250-255. -/
def Job.args {K : Type} (dtype : Option String) : Job K → List (String × Job K)
  | .load _ _ => []
  | .gather ws => (gatherArguments dtype ws).map (fun e => (String.ofList e.1, .load e.2.1 e.2.2))
  | .tokenizer => []
  | .permuted ws _ => [("tokenizer_info", .tokenizer), ("tensors", .gather ws)]
  | .merge p => [("tensors", inputTask p)]
  | .writer => []
  | .save p => [("writer", .writer), ("tensor", .merge p)]
  | .finalize ps => ("writer", .writer) :: (ps.zipIdx.map (fun e => ("_unused_" ++ Nat.repr e.2, .save e.1)))

/-- How deep a task's arguments go; only to show that they are well founded.  [io/tasks.py:72-255, tokenizer/embed.py:20-28] -/
def Job.rank {K : Type} : Job K → Nat
  | .load _ _ => 0
  | .gather _ => 1
  | .tokenizer => 0
  | .permuted _ _ => 2
  | .merge _ => 3
  | .writer => 0
  | .save _ => 4
  | .finalize _ => 5

/-- The tasks with their arguments.  [graph.py:23-57] -/
def jobs (K : Type) (dtype : Option String) : TaskSystem (Job K) where
  args := Job.args dtype
  rank := Job.rank
  rank_lt := by
    intro t a ha
    cases t with
    | load _ _ => cases ha
    | writer => cases ha
    | tokenizer => cases ha
    | gather ws =>
      obtain ⟨e, _, rfl⟩ := List.mem_map.1 ha
      simp [Job.rank]
    | permuted ws b =>
      simp [Job.args] at ha
      rcases ha with rfl | rfl <;> simp [Job.rank]
    | merge p =>
      simp [Job.args] at ha
      subst ha
      simp only [inputTask]
      split <;> simp [Job.rank]
    | save p =>
      simp [Job.args] at ha
      rcases ha with rfl | rfl <;> simp [Job.rank]
    | finalize ps =>
      rcases List.mem_cons.1 ha with rfl | ha
      · simp [Job.rank]
      · obtain ⟨e, _, rfl⟩ := List.mem_map.1 ha
        simp [Job.rank]

/-- What the tasks return, as `WholeMerge.Val` and a `TokenizerInfo` (tokenizer/build.py:172-175). -/
inductive Val (T I : Type) where
  | tensor (x : Option T)
  | dict (d : List (Ref × T))
  | info (i : I)
  | saved (x : Option (String × T))
  | nothing

/-- The tensors among the keyword arguments of `GatherTensors.execute`, io/tasks.py:169-175. -/
def tensorArgs {T I : Type} (args : List (String × Val T I)) : List (Str × Option T) :=
  args.filterMap (fun e => match e.2 with
    | .tensor x => some (e.1.toList, x)
    | _ => none)

/-- What `WholeMerge.Setup` has, the result of building the tokenizer (tokenizer/build.py:290-301) and the re-indexing of gathered embeddings
(tokenizer/embed.py:30-108), which depends on the base model of the place. -/
structure TokSetup (K T E I : Type) extends Setup K T E where
  build : Except E I
  reindex : Option Ref → I → List (Ref × T) → Except E (List (Ref × T))

/-- `Task.execute` of each task: io/tasks.py:110-126, 169-175, tokenizer/build.py:290-301, tokenizer/embed.py:30-108, merge_methods/linear.py:32-57 and the
like, io/tasks.py:196-207, 227-234, 257-258. -/
def execJob {K T E I : Type} (s : TokSetup K T E I) : Job K → List (String × Val T I) → Except (RunErr E) (Val T I)
  | .load m t, _ =>
    match t.execute s.casts (s.loaders m) with
    | .error e => .error (.load e)
    | .ok x => .ok (.tensor x)
  | .gather ws, args => .ok (.dict (gatherExecute ws (tensorArgs args)))
  | .tokenizer, _ =>
    match s.build with
    | .error e => .error (.method e)
    | .ok i => .ok (.info i)
  | .permuted _ b, args =>
    match kwarg args "tokenizer_info", kwarg args "tensors" with
    | some (.info i), some (.dict d) =>
      match s.reindex b i d with
      | .error e => .error (.method e)
      | .ok d' => .ok (.dict d')
    | _, _ => .error .arguments
  | .merge p, args =>
    match kwarg args "tensors" with
    | some (.dict d) =>
      match s.method p d with
      | .error e => .error (.method e)
      | .ok x => .ok (.tensor x)
    | _ => .error .arguments
  | .writer, _ => .ok .nothing
  | .save p, args =>
    match kwarg args "tensor" with
    | some (.tensor x) =>
      match saveExecute s.casts (String.ofList p.weight.name) p.weight.optional (saveDtype s.outDtype p.weight) x with
      | .error e => .error (.load e)
      | .ok y => .ok (.saved y)
    | _ => .error .arguments
  | .finalize _, _ => .ok .nothing

/-- `plan_to_disk`: the save tasks, `FinalizeModel`, and the tokenizer task, plan.py:344-363. -/
def targets {K : Type} (ps : List (Planned K)) : List (Job K) := ps.map .save ++ [.finalize ps] ++ [.tokenizer]

/-- What the tasks of a run do with the one writer, in the order they were executed: `save_tensor` and `finalize`.
[io/tasks.py:227-234, 257-258; io/tensor_writer.py:67-187] -/
def writerRun {K T I : Type} (conf : Writer.Conf) (size : T → Nat) :
    Writer.Writer T → List (Job K × Val T I) → List (Writer.Action T)
  | _, [] => []
  | w, (.save _, .saved (some e)) :: rest =>
    let r := Writer.saveTensor conf size w e.1 e.2
    r.2 ++ writerRun conf size r.1 rest
  | w, (.finalize _, _) :: rest =>
    let r := Writer.finalize conf w
    r.2 ++ writerRun conf size r.1 rest
  | w, _ :: rest => writerRun conf size w rest

/-- The tokenizer `run_merge` keeps: the last `TokenizerInfo` among the values handed out, merge.py:85-88. -/
def keptInfo {K T I : Type} (l : List (Job K × Val T I)) : Option I :=
  l.foldl (fun acc e => match e.2 with
    | .info i => some i
    | _ => acc) none

/-! ## The re-indexing on tensors -/

section
variable {K : Type} [Field K]

/-- A two-dimensional tensor as a list of rows, as embed.py:46-69 uses it.  Tensors of other shapes are refused (`shape[1]` of a one-dimensional one
raises an `IndexError`; more than two dimensions are not modelled). -/
def embOf (t : Tensor.Tensor K) : Except Tok.Err (Tok.Emb K) :=
  match t.shape with
  | [r, c] => .ok ⟨c, (List.range r).map (fun i j => t.get (i * c + j))⟩
  | _ => .error .index

/-- The tensor `new_embed` with these rows, embed.py:85-107. -/
def ofEmb (e : Tok.Emb K) : Tensor.Tensor K :=
  ⟨[e.rows.length, e.width], fun k => ((e.rows[k / e.width]?).getD (fun _ => 0)) (k % e.width)⟩

/-- `models`, embed.py:37-40: the models of the tensors and the base model, in the order `order` python goes through the set. -/
def modelSet (order : List Ref → List Ref) (ms : List Ref) (base : Option Ref) : List Ref :=
  order (match base with
    | some b => if b ∈ ms then ms else ms ++ [b]
    | none => ms)

/-- `PermutedEmbeddings.execute`, embed.py:30-108. -/
def reindexTensors (order : List Ref → List Ref) (tokens : List (Str × Tok.TokCfg Str Ref)) (pad : Option Nat) (base : Option Ref)
    (info : Tok.Info Str Ref) (ts : List (Ref × Tensor.Tensor K)) : Except Tok.Err (List (Ref × Tensor.Tensor K)) :=
  (ts.mapM (fun e => (embOf e.2).map (fun x => (e.1, x)))).bind (fun embs =>
    (Tok.permutedEmbeddings info embs tokens pad base (modelSet order (ts.map Prod.fst) base)).map
      (fun r => r.map (fun e => (e.1, ofEmb e.2))))

end

/-- `TokenizerConfig`, tokenizer/config.py:37-40.  A `tokenizer_source` stands for itself, no tokens and no padding, plan.py:56-71, 211-216. -/
structure TokSettings where
  source : Tok.Source Ref
  tokens : List (Str × Tok.TokCfg Str Ref) := []
  pad : Option Nat := none

/-- The tokenizer task and the re-indexing the planner sets up, plan.py:56-71, 210-224, for a configuration with base model `base` and referenced models
`refs`; `lift` makes exceptions out of errors. -/
def tokSetup {K E : Type} [Field K] (lift : Tok.Err → E) (s : Setup K (Tensor.Tensor K) E) (fresh : Tok.Tokenizer Str → Nat)
    (load : Ref → Option (Tok.Tokenizer Str)) (cfg : Ref → Option Nat) (order : List Ref → List Ref) (base : Option Ref) (refs : List Ref)
    (st : TokSettings) : TokSetup K (Tensor.Tensor K) E (Tok.Info Str Ref) :=
  { s with
    build := (Tok.buildTokenizer fresh load cfg base refs st.source (st.tokens.map Prod.fst)).mapError lift
    reindex := fun b info ts => (reindexTensors order st.tokens st.pad b info ts).mapError lift }

end Verif.WholeTok
