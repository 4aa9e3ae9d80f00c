import Verif.Model.Evolve
import Verif.Model.Genome
import Verif.Model.Resume
import Verif.Model.MultiMerge

/-! # `mergekit-evolve` as a whole (`/repo/mergekit/scripts/evolve.py:206-427`, `evo/strategy.py`, `evo/actors.py:89-121, 150-347`)

The models are converted, populations of genotypes are scored by one of three strategies, and the best genotype is kept. -/

namespace Verif.Search

open Verif.ModelRef (Str Ref ModelPath)
open Verif.Genome (Definition Genome Ops Input mergeConfig)
open Verif.Config (MergeConfig)
open Verif.Evolve (World)
open Verif.Resume (uniqueId entryName)
open Verif.MultiMerge (pathJoin)

/-! ## Strategies

`none` is an exception; a result without a score (`{"score": None, ...}`) is `some none`. -/

/-- `ActorPool.map`, strategy.py:91-97.  The pool of the ray library gives each genotype to some actor (`assign` tells which) as soon as one is
free, an actor works on what it was given in that order, and the results are handed out in the order of the genotypes.  `act` is
`evaluate_genotype` of an actor: from the number of the call and the actor's state to the result and the state it leaves. -/
def pool {A S G R : Type} [DecidableEq A] (act : Nat → S → G → Option R × S) (assign : Nat → A) : Nat → (A → S) → List G → List (Option R)
  | _, _, [] => []
  | i, states, g :: gs =>
    let r := act i (states (assign i)) g
    r.1 :: pool act assign (i + 1) (Function.update states (assign i) r.2) gs

/-- `list(...)` over results, and `ray.get([...])`: an exception if one of them is.  [strategy.py:92, 234, 295] -/
def collect {R : Type} : List (Option R) → Option (List R)
  | [] => some []
  | none :: _ => none
  | some r :: rs => (collect rs).map (fun l => r :: l)

/-- `OnDiskMergeEvaluator.evaluate_genotype`, actors.py:89-121: an invalid genotype has no score.  Nothing is kept between calls (but for the
loaders, see `Session`). -/
def onDisk {G P R E : Type} (w : World G P R E) (i : Nat) (_ : Unit) (g : G) : Option (Option R) × Unit :=
  match w.merge i g with
  | .error _ => (none, ())
  | .ok none => (some none, ())
  | .ok (some p) =>
    match w.evaluate i p with
    | .error _ => (none, ())
    | .ok r => (some (some r), ())

/-- `evaluate_genotype_serial`, strategy.py:241-284.  `merged_path` is an object reference, which is never false (line 262), so `evaluate_model` gets
`None` for an invalid genotype, and raises when it removes that path (helpers.py:88-89). -/
def serialOne {G P R E : Type} (w : World G P R E) (i : Nat) (g : G) : Option (Option R) :=
  match w.merge i g with
  | .error _ => none
  | .ok none => none
  | .ok (some p) =>
    match w.evaluate i p with
    | .error _ => none
    | .ok r => some (some r)

/-- `SerialEvaluationStrategy.evaluate_genotypes`, strategy.py:300-315: a remote call per genotype. -/
def serial {G P R E : Type} (w : World G P R E) (xs : List G) : List (Option (Option R)) :=
  (xs.zipIdx).map (fun e => serialOne w e.2 e.1)

/-- `BufferedRayEvaluationStrategy.evaluate_genotypes`, strategy.py:233-234, after the events `es` at the actor: the answers to the submissions
from number `start` on, in their order.  `none` as long as one is missing. -/
def buffered {G P R E : Type} (gpus : Nat) (w : World G P R E) (es : List (Evolve.Event G)) (start n : Nat) : Option (List (Option R)) :=
  collect ((List.range n).map (fun i => ((Evolve.run gpus w es).answers.lookup (start + i)).map some))

/-! ## The evaluator in memory -/

/-- A configuration object: its attributes, and the keys `to_diff_dict()` lists (the library's: those whose values are not the defaults of the
class).  [actors.py:158-160] -/
structure Cfg (V : Type) where
  attr : Str → Option V
  diff : List Str

/-- The keys that are not compared, actors.py:161-169. -/
def skipped (k : Str) : Bool :=
  k = cs!"architectures" || k = cs!"model_type" || k = cs!"use_cache" || k = cs!"torch_dtype" || (cs!"_token_id").isSuffixOf k

/-- Whether the model at hand is given up, actors.py:160-176. -/
def different {V : Type} [DecidableEq V] (new old : Cfg V) : Bool :=
  new.diff.any (fun k => !skipped k && decide (new.attr k ≠ old.attr k))

/-- `setattr(self.arch_info.config, key, ...)` for the identifiers of tokens, actors.py:166-169. -/
def adopt {V : Type} (new old : Cfg V) : Cfg V :=
  { old with attr := fun k => if k ∈ new.diff ∧ (cs!"_token_id").isSuffixOf k then new.attr k else old.attr k }

/-- What an in-memory evaluator works with: the configuration of the merged model and the merged tensors for a genotype (`none` an exception, an
invalid genotype having no configuration), the parameters of a new model of a configuration, and the evaluation of a model.
[actors.py:150-252, 258-347] -/
structure Memory (G V T R : Type) where
  config : G → Option (Cfg V)
  tensors : G → Option (List (Str × T))
  fresh : Cfg V → List (Str × T)
  evaluate : Nat → Cfg V → List (Str × T) → Option R

/-- `InMemoryMergeEvaluator.evaluate`, actors.py:150-252, 258-347: the state is the configuration and the parameters of the model at hand.
(Without vLLM.  That the parameters are changed even if an exception comes later matters to nobody: the pool is not used again.) -/
def inMemory {G V T R : Type} [DecidableEq V] (m : Memory G V T R) (i : Nat) (s : Option (Cfg V × List (Str × T))) (g : G) :
    Option (Option R) × Option (Cfg V × List (Str × T)) :=
  match m.config g with
  | none => (some none, s)
  | some c =>
    let model : Cfg V × List (Str × T) :=
      match s with
      | none => (c, m.fresh c)
      | some (old, params) => if different c old then (c, m.fresh c) else (adopt c old, params)
    match m.tensors g with
    | none => (none, some model)
    | some ts =>
      match Evolve.load ts model.2 with
      | none => (none, some model)
      | some params =>
        match m.evaluate i model.1 params with
        | none => (none, some (model.1, params))
        | some r => (some (some r), some (model.1, params))

/-! ## Converted models -/

/-- `model.merged(cache_dir=merge_cache, ...)` as a reference, common.py:100-140 (what it does to the cache is in `Resume`).
[scripts/evolve.py:391-395] -/
def mergedRef (crc : Str → Nat) (cache : Str) (r : Ref) : Ref :=
  match r.lora with
  | none => r
  | some l => { model := { path := pathJoin cache (entryName crc r.model l) } }

/-- Where a converted model goes, scripts/evolve.py:396-400. -/
def reshardPath (crc : Str → Nat) (storage cache : Str) (r : Ref) : Str :=
  pathJoin (pathJoin storage cs!"input_models") (uniqueId crc (mergedRef crc cache r).model)

/-- `_reshard_model` returns this reference, scripts/evolve.py:402-404, 427. -/
def resharded (crc : Str → Nat) (storage cache : Str) (r : Ref) : Ref := { model := { path := reshardPath crc storage cache r } }

/-- `_reshard_model`, scripts/evolve.py:385-427, on the directories by path: nothing is done if the path exists, otherwise the model is loaded in
`bfloat16` and saved there (`convert` says what is then in the directory, `none` if loading raises); `cut` is what is there if the program is
stopped while saving.  `none` if it did not end. -/
def reshard {D : Type} (crc : Str → Nat) (storage cache : Str) (convert : Ref → Option D) (cut : Option D) (disk : Str → Option D) (r : Ref) :
    (Str → Option D) × Option Ref :=
  let path := reshardPath crc storage cache r
  match disk path with
  | some _ => (disk, some (resharded crc storage cache r))
  | none =>
    match convert r with
    | none => (disk, none)
    | some d =>
      match cut with
      | some d' => (Function.update disk path (some d'), none)
      | none => (Function.update disk path (some d), some (resharded crc storage cache r))

/-- The loop over the models and then the base model, scripts/evolve.py:207-226 (not cut off). -/
def reshardAll {D : Type} (crc : Str → Nat) (storage cache : Str) (convert : Ref → Option D) :
    (Str → Option D) → List Ref → (Str → Option D) × Option (List Ref)
  | disk, [] => (disk, some [])
  | disk, r :: rs =>
    match reshard crc storage cache convert none disk r with
    | (disk, none) => (disk, none)
    | (disk, some r') =>
      let rest := reshardAll crc storage cache convert disk rs
      (rest.1, rest.2.map (fun l => r' :: l))

/-- The definition with other references, scripts/evolve.py:231-244. -/
def withRefs (d : Definition) (models : List Ref) (base : Option Ref) : Definition := { d with models := models, baseModel := base }

/-! ## The search -/

/-- What the search knows after some generations: the optimiser's best (`es.result`, none before the first), what `progress_callback` remembers,
the last `best_config.yaml`, and every genotype with its cost.  [scripts/evolve.py:272-305] -/
structure State (K : Type) where
  es : Option (List K × K) := none
  best : List K × Option K
  file : Option (MergeConfig K) := none
  seen : List (List K × K) := []

section
variable {K : Type} [Field K] [LinearOrder K]

/-- The optimiser's best genotype: a later one replaces it only if it is strictly better.  [scripts/evolve.py:276, 295; the cma library] -/
def esBest (b : Option (List K × K)) (e : List K × K) : Option (List K × K) :=
  match b with
  | none => some e
  | some f => if e.2 < f.2 then some e else some f

/-- `res.fbest < xbest_cost`, scripts/evolve.py:295; the cost remembered is infinite at first (272-273). -/
def improves (c : K) : Option K → Bool
  | none => true
  | some d => decide (c < d)

/-- `progress_callback`, scripts/evolve.py:273-305 (without wandb): `none` if making the configuration raises. -/
def callback (ops : Ops K) (g : Genome) (s : State K) : Option (State K) :=
  match s.es with
  | none => some s
  | some e =>
    if improves e.2 s.best.2 then
      match mergeConfig ops g (.flat e.1) with
      | .error _ => none
      | .ok cfg => some { s with best := (e.1, some e.2), file := some cfg }
    else some s

/-- One generation: the population `xs` is scored (`evaluate` is `strat.evaluate_genotypes`), the costs are reported, the callback is called.
[scripts/evolve.py:312-349, 355-362] -/
def generation (ops : Ops K) (g : Genome) (evaluate : List (List K) → Option (List (Option K))) (xs : List (List K)) (s : State K) :
    Option (State K) :=
  match evaluate xs with
  | none => none
  | some scores =>
    match Evolve.costs scores with
    | .error _ => none
    | .ok cs => callback ops g { s with es := (xs.zip cs).foldl esBest s.es, seen := s.seen ++ xs.zip cs }

/-- `cma.fmin2`, scripts/evolve.py:355-362, for any optimiser: `ask` gives the next population from what has been seen.  The state after `n`
generations; `evaluate n` scores the population of generation `n`. -/
def search (ops : Ops K) (g : Genome) (evaluate : Nat → List (List K) → Option (List (Option K))) (ask : List (List K × K) → List (List K))
    (x0 : List K) : Nat → Option (State K)
  | 0 => some { best := (x0, none) }
  | n + 1 =>
    match search ops g evaluate ask x0 n with
    | none => none
    | some s => generation ops g (evaluate n) (ask s.seen) s

/-- The genotype reported at the end: the optimiser's best if it came to an end, and after an interrupt what the callback remembers.
[scripts/evolve.py:355-365] -/
def chosen (interrupted : Bool) (s : State K) : Option (List K) :=
  if interrupted then some s.best.1 else s.es.map Prod.fst

end

end Verif.Search
