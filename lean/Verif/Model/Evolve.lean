import Verif.Model.Chars
import Verif.Model.ModelRef

/-!
# Model of evaluation in `mergekit-evolve`

`mergekit/evo/strategy.py` (buffered queue), `mergekit/evo/helpers.py` (scores, temporary models),
`mergekit/evo/config.py` (benchmark guard), `mergekit/evo/actors.py` (in-memory evaluation) and the
objective function of `mergekit/scripts/evolve.py`.
-/

namespace Verif.Evolve

open Verif.ModelRef (Str)

/-! ## The buffered evaluation queue -/

/-- What Ray runs for the queue: `merge_model` (`evo/helpers.py:95-110`; `none` for an invalid
genotype) and `evaluate_model` (`evo/helpers.py:50-89`), the number being the call.  Any call may fail
and two calls on the same arguments need not agree. -/
structure World (G P R E : Type) where
  merge : Nat → G → Except E (Option P)
  evaluate : Nat → P → Except E R

/-- `merge_model_ray.remote(genotype, ...)`: the object reference of a merge
(`evo/strategy.py:149-156`). -/
structure MergeRef (G : Type) where
  id : Nat
  genotype : G
deriving Repr, DecidableEq

/-- `evaluate_model_ray.remote(merged_path, ...)`: the object reference of an evaluation, given the
reference of a merge (`evo/strategy.py:163-176`). -/
structure EvalRef (G : Type) where
  id : Nat
  path : MergeRef G
deriving Repr, DecidableEq

/-- State of `BufferedRayEvaluationStrategyActor` (`evo/strategy.py:105-141`): the input queue, the
three local collections of `process_queue`, the futures already answered, whether the loop has
ended, the number of remote calls made and (for the specification) every genotype submitted so far.
A future is the number of the submission it belongs to. -/
structure State (G R : Type) where
  submitted : List G := []
  queue : List (G × Nat) := []
  merging : List (MergeRef G × Nat) := []
  merged : List (Nat × MergeRef G) := []
  evaluating : List (EvalRef G × Nat) := []
  answers : List (Nat × R) := []
  ended : Bool := false
  calls : Nat := 0
deriving Repr, DecidableEq

variable {G P R E : Type}

/-- `evaluate_genotype` (`evo/strategy.py:133-136`): a fresh future is queued with the genotype. -/
def submit (s : State G R) (g : G) : State G R :=
  { s with submitted := s.submitted ++ [g]
           queue := s.queue ++ [(g, s.submitted.length)] }

/-- `while self.input_queue and (len(merging) + len(merged) < self.num_gpus)`
(`evo/strategy.py:147-156`); the first argument is the queue. -/
def startMerges (gpus : Nat) : List (G × Nat) → State G R → State G R
  | [], s => s
  | (g, f) :: rest, s =>
    if s.merging.length + s.merged.length < gpus then
      startMerges gpus rest
        { s with queue := rest
                 merging := s.merging ++ [(⟨s.calls, g⟩, f)]
                 calls := s.calls + 1 }
    else s

/-- One round of the loop below: `merged.pop()` takes the last entry (`evo/strategy.py:159-176`). -/
def startEval (s : State G R) : State G R :=
  match s.merged.getLast? with
  | none => s
  | some (f, r) =>
    { s with merged := s.merged.dropLast
             evaluating := s.evaluating ++ [(⟨s.calls, r⟩, f)]
             calls := s.calls + 1 }

/-- `while merged and len(evaluating) < self.num_gpus` (`evo/strategy.py:158-176`); the first argument
bounds the number of rounds and is given the length of `merged`, which every round shortens. -/
def startEvals (gpus : Nat) : Nat → State G R → State G R
  | 0, s => s
  | k + 1, s =>
    if s.merged = [] then s
    else if s.evaluating.length < gpus then startEvals gpus k (startEval s) else s

/-- Everything the loop starts before it waits (`evo/strategy.py:147-176`). -/
def fill (gpus : Nat) (s : State G R) : State G R :=
  let s := startMerges gpus s.queue s
  startEvals gpus s.merged.length s

/-- The list given to `ray.wait` (`evo/strategy.py:178-179`). -/
def waiting (s : State G R) : List Nat := s.merging.map (·.1.id) ++ s.evaluating.map (·.1.id)

/-- Value of an evaluation's reference: the reference of the merge is resolved first, its exception
being passed on; for an invalid genotype the path is `None`, and `shutil.rmtree(None)` raises
(`evo/helpers.py:61-89`, `evo/strategy.py:190`).  `none` is an exception. -/
def value (w : World G P R E) (r : EvalRef G) : Option R :=
  match w.merge r.path.id r.path.genotype with
  | .error _ => none
  | .ok none => none
  | .ok (some p) =>
    match w.evaluate r.id p with
    | .error _ => none
    | .ok x => some x

/-- Handling of a ready reference (`evo/strategy.py:184-190`): a finished merge goes to `merged`; the
result of an evaluation is given to its future, an exception ends the loop (`:199-201`). -/
def handle (w : World G P R E) (id : Nat) (s : State G R) : State G R :=
  match s.merging.find? (·.1.id == id) with
  | some (r, f) =>
    { s with merging := s.merging.eraseP (·.1.id == id)
             merged := s.merged ++ [(f, r)] }
  | none =>
    match s.evaluating.find? (·.1.id == id) with
    | some (r, f) =>
      match value w r with
      | some x =>
        { s with evaluating := s.evaluating.eraseP (·.1.id == id)
                 answers := s.answers ++ [(f, x)] }
      | none =>
        { s with evaluating := s.evaluating.eraseP (·.1.id == id)
                 ended := true }
    | none => s

/-- One iteration of `process_queue` (`evo/strategy.py:146-198`), `ray.wait` having returned the given
reference, or nothing within its second.  New submissions arrive while the loop awaits, which it
does at the end of an iteration only, hence between iterations here. -/
def turn (gpus : Nat) (w : World G P R E) (ready : Option Nat) (s : State G R) : State G R :=
  if s.ended then s
  else
    match ready with
    | none => fill gpus s
    | some id => handle w id (fill gpus s)

/-- What may happen to the actor: a genotype is submitted (`evo/strategy.py:133-136`) or the loop goes
round once (`:146`). -/
inductive Event (G : Type) where
  | submit (g : G)
  | turn (ready : Option Nat)
deriving Repr, DecidableEq

/-- One event (`evo/strategy.py:133-198`). -/
def step (gpus : Nat) (w : World G P R E) (s : State G R) : Event G → State G R
  | .submit g => submit s g
  | .turn ready => turn gpus w ready s

/-- A history of the actor from its creation (`evo/strategy.py:106-131`). -/
def run (gpus : Nat) (w : World G P R E) (es : List (Event G)) : State G R :=
  es.foldl (step gpus w) {}

/-! ## Scores -/

/-- `TaskConfiguration` (`evo/config.py:12-15`). -/
structure Task (K : Type) where
  name : Str
  weight : K
  metric : Str
deriving Repr, DecidableEq

/-- Ways in which an evaluation goes wrong: a task or metric missing from the results (`KeyError`,
`evo/helpers.py:46`), an absent score negated (`TypeError`, `scripts/evolve.py:349`). -/
inductive Err where
  | missing
  | noScore
deriving Repr, DecidableEq

variable {K : Type}

/-- One round of the loop in `_eval_model` (`evo/helpers.py:45-46`). -/
def addTask [Add K] [Mul K] (results : Str → Str → Option K) (acc : K) (t : Task K) : Except Err K :=
  match results t.name t.metric with
  | some x => .ok (acc + x * t.weight)
  | none => .error .missing

/-- `_eval_model` after `lm_eval.simple_evaluate` (`evo/helpers.py:44-47`): the results are looked up
in the order of the tasks and the weighted values added up. -/
def score [Add K] [Mul K] [Zero K] (results : Str → Str → Option K) (tasks : List (Task K)) :
    Except Err K :=
  tasks.foldlM (addTask results) 0

/-- Tasks handed to `lm_eval.simple_evaluate`: `list(set([task.name for task in tasks]))`
(`evo/helpers.py:36`; the order of a set is not specified, here that of first occurrence). -/
def evaluated (tasks : List (Task K)) : List Str := (tasks.map (·.name)).eraseDups

/-- `-x["score"]` (`scripts/evolve.py:349`). -/
def costOf [Neg K] : Option K → Except Err K
  | some x => .ok (-x)
  | none => .error .noScore

/-- Value of the objective function: `[-x["score"] for x in res]` (`scripts/evolve.py:349`; a score is
`None` for an invalid genotype, `evo/actors.py:104`, `:263`). -/
def costs [Neg K] (scores : List (Option K)) : Except Err (List K) := scores.mapM costOf

/-- The part of `progress_callback` that remembers the best genotype (`scripts/evolve.py:273-274`,
`:295-297`): the optimiser's best so far replaces the remembered one only if strictly cheaper; the
remembered cost starts at infinity (`none`). -/
def remember {X : Type} [LT K] [DecidableLT K] (best : X × Option K) (found : X × K) : X × Option K :=
  match best.2 with
  | none => (found.1, some found.2)
  | some c => if found.2 < c then (found.1, some found.2) else best

/-! ## Temporary models -/

/-- `merge_model` followed by `evaluate_model` on the storage directory, the set of directories in it
(`evo/helpers.py:61-89`, `:95-110`): a fresh directory is made, the merge may fail (its directory then
stays), the evaluation may fail, and the directory is removed after any evaluation. -/
def evaluateOnDisk {D : Type} [DecidableEq D] (fresh : List D → D) (invalid mergeFails evalFails : Bool)
    (dirs : List D) : List D × Bool :=
  if invalid then (dirs, false)
  else
    let d := fresh dirs
    if mergeFails then (dirs ++ [d], false)
    else ((dirs ++ [d]).erase d, !evalFails)

/-! ## Benchmark guard -/

/-- `NAUGHTY_PREFIXES` (`evo/config.py:35-49`). -/
def benchmarkPrefixes : List Str :=
  [cs!"mmlu", cs!"hendrycks", cs!"agieval", cs!"gsm8k", cs!"hellaswag", cs!"winogrande", cs!"arc_",
   cs!"ai2_arc", cs!"truthfulqa", cs!"bigbench", cs!"piqa", cs!"openbookqa", cs!"leaderboard"]

/-- Inner loop of `check_for_naughty_config` for one task (`evo/config.py:67-86`): number of warnings,
or refusal. -/
def guardTask (allow : Bool) (name : Str) : List Str → Nat → Option Nat
  | [], n => some n
  | p :: ps, n =>
    if p.isPrefixOf name then
      if (cs!"_train").isSuffixOf name then guardTask allow name ps n
      else if !allow then none
      else guardTask allow name ps (n + 1)
    else guardTask allow name ps n

/-- `check_for_naughty_config` (`evo/config.py:52-86`): `none` is the `ValueError`, otherwise the number
of warnings. -/
def guard (allow : Bool) : List Str → Nat → Option Nat
  | [], n => some n
  | t :: ts, n =>
    match guardTask allow t benchmarkPrefixes n with
    | none => none
    | some m => guard allow ts m

/-! ## Evaluation in memory -/

/-- The loop over the merged tensors (`evo/actors.py:314-336`) for a model without packed parameters
(the branch for vLLM's packed parameters is in `Model/Packed.lean`): each tensor is copied into the
parameter of its name; a tensor without a parameter is an error (`none`). -/
def load {T : Type} : List (Str × T) → List (Str × T) → Option (List (Str × T))
  | [], params => some params
  | (name, t) :: rest, params =>
    if params.any (·.1 == name) then
      load rest (params.map (fun e => if e.1 == name then (e.1, t) else e))
    else none

/-- Evaluations one after another on the one model of `InMemoryMergeEvaluator`
(`evo/actors.py:258-347`): the tensors of each merge are copied into the parameters left by the one
before; the result is what the evaluation sees. -/
def evaluateAll {T : Type} : List (List (Str × T)) → List (Str × T) → List (Option (List (Str × T)))
  | [], _ => []
  | m :: ms, params =>
    match load m params with
    | none => [none]
    | some q => some q :: evaluateAll ms q

end Verif.Evolve
