import Verif.Model.EvolveMain

/-! # How `mergekit-evolve` has models evaluated (`/repo/mergekit/evo/helpers.py`, `strategy.py`, `actors.py`, `monkeypatch.py`)

The calls of `lm_eval.simple_evaluate` that the strategies make, with everything that reaches them from the document and the command line, and the patch that shuffles data. -/

namespace Verif.Evolve

open Verif.ModelRef (Str)

/-- Values of arguments; `quant` is a `BitsAndBytesConfig` with its two flags.  [evo/helpers.py:63-90; scripts/evolve.py:174-180] -/
inductive Arg where
  | none
  | bool (b : Bool)
  | int (i : Int)
  | text (s : Str)
  | quant (eight four : Bool)
deriving DecidableEq

/-- An optional integer as an argument.  [evo/helpers.py:81-83] -/
def Arg.ofInt : Option Int → Arg
  | Option.none => .none
  | some i => .int i

/-- A call of `lm_eval.simple_evaluate`: the kind of model (none if it is an object that has been loaded), its arguments, the tasks, the directories the task manager looks in, the other keywords, and whether
the library has been patched in the process to shuffle data.  [evo/helpers.py:26-40; evo/monkeypatch.py:8-32] -/
structure EvalCall where
  kind : Option Str
  modelArgs : List (Str × Arg)
  tasks : List Str
  search : List Str
  kwargs : List (Str × Arg)
  shuffled : Bool

/-- `_eval_model`, evo/helpers.py:26-40; `list(set(...))` in some order. -/
def evalModel {K : Type} (kind : Option Str) (tasks : List (Task K)) (modelArgs : List (Str × Arg)) (search : List Str) (kwargs : List (Str × Arg)) (shuffled : Bool) : EvalCall :=
  ⟨kind, modelArgs, (tasks.map (·.name)).dedup, search, kwargs, shuffled⟩

/-- `evaluate_model`, evo/helpers.py:50-90.  (The number 0.8 as a text.) -/
def evaluateModel {K : Type} (path : Str) (tasks : List (Task K)) (fewshot limit : Option Int) (vllm : Bool) (batch : Option Int) (search : List Str) (modelKwargs kwargs : List (Str × Arg))
    (shuffled : Bool) : EvalCall :=
  evalModel (some (if vllm then cs!"vllm" else cs!"huggingface")) tasks
    ([(cs!"pretrained", .text path), (cs!"dtype", .text cs!"bfloat16")] ++ modelKwargs ++
      (if vllm then [(cs!"gpu_memory_utilization", .text cs!"0.8"), (cs!"tensor_parallel_size", .int 1), (cs!"batch_size", .text cs!"auto"), (cs!"max_model_len", .int 4096)]
       else [(cs!"use_cache", .bool true)]))
    search ([(cs!"num_fewshot", Arg.ofInt fewshot), (cs!"limit", Arg.ofInt limit), (cs!"batch_size", Arg.ofInt batch)] ++ kwargs) shuffled

/-- `max_model_len`, evo/actors.py:222-231: zero counts as missing. -/
def maxModelLen (positions window : Option Int) : Option Int :=
  let a := match window with
    | Option.none => positions
    | some w => some (min (match positions with | some p => if p ≠ 0 then p else 1024 | Option.none => 1024) w)
  match a with
  | some m => if m ≠ 0 ∧ m > 8192 then some 8192 else some m
  | Option.none => Option.none

/-- The classes of the library that download data, as far as they are patched.  [evo/monkeypatch.py:12-31] -/
structure Downloads (D : Type) where
  task : D → D
  configurable : D → D
  marked : Bool

/-- `monkeypatch_lmeval_shuffle`, evo/monkeypatch.py:8-32. -/
def patchShuffle {D : Type} (shuffle : D → D) (l : Downloads D) : Downloads D :=
  if l.marked then l else ⟨fun d => shuffle (l.task d), fun d => shuffle (l.configurable d), true⟩

end Verif.Evolve

namespace Verif.Main

open Verif.ModelRef (Str)
open Verif.Evolve (Arg EvalCall)

variable {K : Type}

/-- `bnb_config`, scripts/evolve.py:166-182. -/
def bnbConfig (q : EvoLine K) : List (Str × Arg) := if q.four || q.eight then [(cs!"quantization_config", .quant q.eight q.four)] else []

/-- The keywords that all evaluations are given, evo/actors.py:118-119, 345-346; evo/strategy.py:172-173, 274-275. -/
def chatArgs (c : EvoConf K) : List (Str × Arg) := [(cs!"apply_chat_template", .bool c.chat), (cs!"fewshot_as_multiturn", .bool c.multiturn)]

/-- `OnDiskMergeEvaluator.evaluate_genotype`, evo/actors.py:106-121, in an actor of `MergeActorBase.__init__`, 71-75, made in evo/strategy.py:77-91. -/
def diskCall (q : EvoLine K) (c : EvoConf K) (path : Str) : EvalCall :=
  Evolve.evaluateModel path c.tasks c.fewshot c.limit q.vllm q.batch q.taskPaths (bnbConfig q) (chatArgs c) c.shuffle

/-- `InMemoryMergeEvaluator.evaluate`, evo/actors.py:338-347; the model has been loaded, so there are no arguments for it. -/
def memoryCall (q : EvoLine K) (c : EvoConf K) : EvalCall :=
  Evolve.evalModel none c.tasks [] q.taskPaths ([(cs!"num_fewshot", Arg.ofInt c.fewshot), (cs!"limit", Arg.ofInt c.limit), (cs!"batch_size", Arg.ofInt q.batch)] ++ chatArgs c) c.shuffle

/-- `evaluate_model_ray.remote(...)` in the loop of the buffered strategy, evo/strategy.py:158-176: a process of its own (`num_gpus=1.0` of evo/helpers.py:92), which no actor has patched. -/
def bufferedCall (q : EvoLine K) (c : EvoConf K) (path : Str) : EvalCall :=
  Evolve.evaluateModel path c.tasks c.fewshot c.limit q.vllm q.batch q.taskPaths [] (chatArgs c ++ bnbConfig q) false

/-- `evaluate_genotype_serial`, evo/strategy.py:262-278: likewise a process of its own. -/
def serialCall (q : EvoLine K) (c : EvoConf K) (path : Str) : EvalCall :=
  Evolve.evaluateModel path c.tasks c.fewshot c.limit q.vllm q.batch q.taskPaths [] (chatArgs c ++ bnbConfig q) false

/-- How a merged model is evaluated, scripts/evolve.py:250-270; evo/strategy.py:64-91, 215-216, 292-293: evaluation in memory is refused by two of the strategies.  (`click` admits no further strategies.) -/
def evoCall (q : EvoLine K) (c : EvoConf K) (path : Str) : Option EvalCall :=
  if q.strategy = cs!"pool" then some (if q.inMemory then memoryCall q c else diskCall q c path)
  else if q.inMemory then none
  else if q.strategy = cs!"buffered" then some (bufferedCall q c path)
  else some (serialCall q c path)

end Verif.Main
