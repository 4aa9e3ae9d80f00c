import Verif.Model.Search
import Verif.Model.ScriptMain

/-! # `mergekit-evolve` from the command line (`/repo/mergekit/scripts/evolve.py:125-427`, `/repo/mergekit/evo/config.py:12-32`)

Joins the command line (`Model/CommandLine.lean`), the validation of the document, the guard against benchmarks (`Model/Evolve.lean`), the conversion of models and the search (`Model/Search.lean`). -/

namespace Verif.Document

open Verif.ModelRef (Str Ref)

variable {K : Type}

/-- `TaskConfiguration.model_validate`, evo/config.py:12-21; a text is the name of a task.  The default weight is `float`'s 1.0. -/
def readTask (L : Lib K) : Doc K → R (Evolve.Task K)
  | .str s => .ok ⟨s, L.ofInt 1, cs!"acc,none"⟩
  | .dict d => do
    let n ← req readStr (d.lookup cs!"name")
    let w ← deflt (L.ofInt 1) (readFloat L) (d.lookup cs!"weight")
    let m ← deflt cs!"acc,none" readStr (d.lookup cs!"metric")
    .ok ⟨n, w, m⟩
  | _ => .error .validation

/-- The keys of `METHOD_PARAM_MAPS`, evo/genome.py:16-22, 42. -/
def evoMethod (s : Str) : Option Genome.Method :=
  if s = cs!"linear" then some .linear
  else if s = cs!"task_arithmetic" then some .taskArithmetic
  else if s = cs!"ties" then some .ties
  else if s = cs!"dare_ties" then some .dareTies
  else if s = cs!"slerp" then some .slerp
  else none

/-- `ModelGenomeDefinition.model_validate`, evo/genome.py:29-53; failed assertions are errors of validation. -/
def readGenome (L : Lib K) : Doc K → R Genome.Definition
  | .dict d => do
    let ms ← req (readList readRef) (d.lookup cs!"models")
    let mm ← req readStr (d.lookup cs!"merge_method")
    let b ← opt readRef (d.lookup cs!"base_model")
    let ts ← opt readStr (d.lookup cs!"tokenizer_source")
    let g ← deflt 0 (readInt L) (d.lookup cs!"layer_granularity")
    let n ← opt (readBool L) (d.lookup cs!"normalize")
    let a ← deflt false (readBool L) (d.lookup cs!"allow_negative_weights")
    let fs ← opt (readList readStr) (d.lookup cs!"filters")
    let s ← deflt false (readBool L) (d.lookup cs!"smooth")
    let m ← orInvalid (evoMethod mm)
    let r : Genome.Definition := ⟨ms, m, b, !(ts.getD []).isEmpty, g, n, a, fs, s⟩
    if r.valid then .ok r else .error .validation
  | _ => .error .validation

end Verif.Document

namespace Verif.Main

open Verif.ModelRef (Str Ref)
open Verif.Document (Doc)
open Verif.Config (MergeConfig)

/-- `EvolMergeConfiguration`, evo/config.py:24-32. -/
structure EvoConf (K : Type) where
  genome : Genome.Definition
  tasks : List (Evolve.Task K)
  limit : Option Int
  fewshot : Option Int
  shuffle : Bool
  randomInit : Bool
  chat : Bool
  multiturn : Bool

/-- `EvolMergeConfiguration.model_validate`, scripts/evolve.py:157-159; evo/config.py:24-32. -/
def readEvo {K : Type} (L : Document.Lib K) : Doc K → Document.R (EvoConf K)
  | .dict d => do
    let g ← Document.req (Document.readGenome L) (d.lookup cs!"genome")
    let ts ← Document.req (Document.readList (Document.readTask L)) (d.lookup cs!"tasks")
    let l ← Document.opt (Document.readInt L) (d.lookup cs!"limit")
    let f ← Document.opt (Document.readInt L) (d.lookup cs!"num_fewshot")
    let s ← Document.deflt false (Document.readBool L) (d.lookup cs!"shuffle")
    let r ← Document.deflt false (Document.readBool L) (d.lookup cs!"random_init")
    let c ← Document.deflt true (Document.readBool L) (d.lookup cs!"apply_chat_template")
    let m ← Document.deflt true (Document.readBool L) (d.lookup cs!"fewshot_as_multiturn")
    .ok ⟨g, ts, l, f, s, r, c, m⟩
  | _ => .error .validation

/-- What surrounds a run: files, the YAML library, the conversions of the validation library and of `click`, which libraries are installed, checksums, what a converted model is, the layers of a model (its
`config()`, with the directories as they are) and the directories beforehand.  [scripts/evolve.py:43-150, 157-193, 385-427] -/
structure EvoWorld (K D : Type) where
  file : Str → Option Str
  yaml : Str → Option (Doc K)
  lib : Document.Lib K
  int : Str → Option Int
  float : Str → Option K
  installed : Str → Bool
  crc : Str → Nat
  convert : Ref → Option D
  layers : (Str → Option D) → Ref → Nat
  disk : Str → Option D

/-- How the command can end before the search.  [scripts/evolve.py:43-270] -/
inductive EvoErr where
  | usage (e : CommandLine.Err)
  | badValue
  | noFile
  | syntax
  | config (e : Document.Err)
  | benchmark
  | bits
  | library
  | conversion
  | genome (e : Genome.Err)
  | nothing

/-- The options of the line as `click` gives them, except those for wandb's names.  [scripts/evolve.py:43-150] -/
structure EvoLine (K : Type) where
  storage : Str
  maxFevals : Int
  strategy : Str
  vllm : Bool
  inMemory : Bool
  numGpus : Option Int
  cuda : Bool
  trust : Bool
  crimes : Bool
  seed : Int
  batch : Option Int
  sigma : K
  wandb : Bool
  taskPaths : List Str
  allow : Bool
  save : Bool
  reshard : Bool
  timeout : Option K
  eight : Bool
  four : Bool
  popsize : Option Int

/-- A typed option with a default.  [scripts/evolve.py:45, 66, 70-72, 101-106, 119-124] -/
def typed {A : Type} (f : Str → Option A) (default : A) : Option Str → Option A
  | none => some default
  | some s => f s

/-- `click`'s types: `int`, `float` and `Choice(["pool", "buffered", "serial"])`.  [scripts/evolve.py:43-150] -/
def evoLine {K D : Type} [Field K] (W : EvoWorld K D) (k : CommandLine.Call) : Option (EvoLine K) := do
  let fevals ← typed W.int 100 (wordOf k cs!"max_fevals")
  let strategy ← typed (fun s => if s ∈ [cs!"pool", cs!"buffered", cs!"serial"] then some s else none) cs!"pool" (wordOf k cs!"strategy")
  let gpus ← typed (fun s => (W.int s).map some) none (wordOf k cs!"num_gpus")
  let seed ← typed W.int 0 (wordOf k cs!"random_seed")
  let batch ← typed (fun s => (W.int s).map some) none (wordOf k cs!"batch_size")
  let sigma ← typed W.float (1 / 6) (wordOf k cs!"sigma0")
  let timeout ← typed (fun s => (W.float s).map some) none (wordOf k cs!"timeout")
  let popsize ← typed (fun s => (W.int s).map some) none (wordOf k cs!"force_population_size")
  some { storage := (wordOf k cs!"storage_path").getD [], maxFevals := fevals, strategy, vllm := flagOf k cs!"vllm" false, inMemory := flagOf k cs!"in_memory" false, numGpus := gpus,
         cuda := flagOf k cs!"merge_cuda" true, trust := flagOf k cs!"trust_remote_code" false, crimes := flagOf k cs!"allow_crimes" false, seed, batch, sigma,
         wandb := flagOf k cs!"use_wandb" false, taskPaths := wordsOf k cs!"task_search_path", allow := flagOf k cs!"allow_benchmark_tasks" false,
         save := flagOf k cs!"save_final_model" true, reshard := flagOf k cs!"reshard" true, timeout, eight := flagOf k cs!"load_in_8bit" false, four := flagOf k cs!"load_in_4bit" false, popsize }

/-- The fields of `MergeOptions(...)` that are given, scripts/evolve.py:195-208. -/
def evoOptions {K : Type} (q : EvoLine K) : List (Str × CommandLine.FieldVal) :=
  [(cs!"transformers_cache", .str (MultiMerge.pathJoin q.storage cs!"transformers_cache")), (cs!"lora_merge_cache", .str (MultiMerge.pathJoin q.storage cs!"lora_merge_cache")),
    (cs!"cuda", .bool q.cuda), (cs!"low_cpu_memory", .bool (q.cuda && !q.inMemory)), (cs!"out_shard_size", .int 1000000000000), (cs!"trust_remote_code", .bool q.trust),
    (cs!"allow_crimes", .bool q.crimes), (cs!"random_seed", .int q.seed), (cs!"quiet", .bool true), (cs!"read_to_gpu", .bool (q.cuda && !q.inMemory)), (cs!"copy_tokenizer", .bool true),
    (cs!"safe_serialization", .bool true)]

/-- A search that can begin: the line, the document, the genome with the models to be used, and the directories as they are then.  [scripts/evolve.py:234-272] -/
structure EvoPlan (K D : Type) where
  line : EvoLine K
  conf : EvoConf K
  genome : Genome.Genome
  disk : Str → Option D

/-- The models to be used, scripts/evolve.py:210-232: the directories afterwards and the references. -/
def evoModels {K D : Type} (W : EvoWorld K D) (q : EvoLine K) (d : Genome.Definition) : (Str → Option D) × Option Genome.Definition :=
  if q.reshard then
    match Search.reshardAll W.crc q.storage (MultiMerge.pathJoin q.storage cs!"lora_merge_cache") W.convert W.disk d.models with
    | (disk, none) => (disk, none)
    | (disk, some ms) =>
      match d.baseModel with
      | none => (disk, some (Search.withRefs d ms none))
      | some b =>
        match Search.reshard W.crc q.storage (MultiMerge.pathJoin q.storage cs!"lora_merge_cache") W.convert none disk b with
        | (disk, none) => (disk, none)
        | (disk, some b) => (disk, some (Search.withRefs d ms (some b)))
  else (W.disk, some d)

/-- The checks on bits and libraries, scripts/evolve.py:163-193. -/
def evoChecks {K D : Type} (W : EvoWorld K D) (q : EvoLine K) : Option EvoErr :=
  if q.four && q.eight then some .bits
  else if (q.four || q.eight) && (q.vllm || q.inMemory) then some .bits
  else if (q.four || q.eight) && !W.installed cs!"bitsandbytes" then some .library
  else if q.wandb && !W.installed cs!"wandb" then some .library
  else none

/-- `main`, scripts/evolve.py:125-270, up to the search.  (That the strategies can be set up - ray, accelerators - is not part of it.) -/
def evoStart {K D : Type} [Field K] (W : EvoWorld K D) (line : List Str) : Except EvoErr (EvoPlan K D) :=
  match CommandLine.call CommandLine.evolve line with
  | .error e => .error (.usage e)
  | .ok k =>
    match evoLine W k with
    | none => .error .badValue
    | some q =>
      match W.file (argument k cs!"genome_config_path") with
      | none => .error .noFile
      | some text =>
        match W.yaml text with
        | none => .error .syntax
        | some d =>
          match readEvo W.lib d with
          | .error e => .error (.config e)
          | .ok c =>
            match Evolve.guard q.allow (c.tasks.map (·.name)) 0 with
            | none => .error .benchmark
            | some _ =>
              match evoChecks W q with
              | some e => .error e
              | none =>
                match evoModels W q c.genome with
                | (_, none) => .error .conversion
                | (disk, some d) =>
                  match Genome.create d (W.layers disk) with
                  | .error e => .error (.genome e)
                  | .ok g => .ok ⟨q, c, g, disk⟩

/-- `x0`, scripts/evolve.py:272: `view(-1)` of the initial genotype, or random numbers.  [evo/genome.py:76-95] -/
def evoFirst {K D : Type} [Field K] [LinearOrder K] (p : EvoPlan K D) (random : Nat → K) : List K :=
  let x := p.genome.initial (K := K)
  let n := x.groups * x.models * x.sets * x.params
  if p.conf.randomInit then (List.range n).map random
  else (List.range n).map (fun i => x.at' 0 0 0 (i % x.params))

/-- What the search is told: `sigma0`, `maxfevals`, `timeout`, `popsize`.  [scripts/evolve.py:352-362] -/
structure CmaSettings (K : Type) where
  sigma : K
  maxFevals : Int
  timeout : Option K
  popsize : Option Int

/-- The search, scripts/evolve.py:351-365: the optimiser `ask` is given the settings, the first genotype and what has been seen. -/
def evoSearch {K D : Type} [Field K] [LinearOrder K] (ops : Genome.Ops K) (p : EvoPlan K D) (random : Nat → K) (evaluate : Nat → List (List K) → Option (List (Option K)))
    (ask : CmaSettings K → List K → List (List K × K) → List (List K)) (n : Nat) : Option (Search.State K) :=
  Search.search ops p.genome evaluate (ask ⟨p.line.sigma, p.line.maxFevals, p.line.timeout, p.line.popsize⟩ (evoFirst p random)) (evoFirst p random) n

/-- What there is in the end: the merge that is printed, and the directory and the options it is executed with.  [scripts/evolve.py:374-382] -/
structure EvoResult (K : Type) where
  method : Genome.Method
  dtype : Str
  config : MergeConfig K
  saved : Option (Str × List (Str × CommandLine.FieldVal))

/-- The end, scripts/evolve.py:374-382, with the method and type of evo/genome.py:142-154. -/
def evoEnd {K D : Type} [Field K] [LinearOrder K] (W : EvoWorld K D) (ops : Genome.Ops K) (p : EvoPlan K D) (interrupted : Bool) (s : Search.State K) : Except EvoErr (EvoResult K) :=
  match Search.chosen interrupted s with
  | none => .error .nothing
  | some x =>
    match Genome.create p.conf.genome (W.layers p.disk) with
    | .error e => .error (.genome e)
    | .ok g =>
      match Genome.mergeConfig ops g (.flat x) with
      | .error e => .error (.genome e)
      | .ok cfg => .ok ⟨p.conf.genome.method, cs!"bfloat16", cfg, if p.line.save then some (MultiMerge.pathJoin p.line.storage cs!"final_model", evoOptions p.line) else none⟩

end Verif.Main
