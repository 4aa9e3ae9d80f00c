import Verif.Model.EvolveMain
import Verif.Props.Search
import Verif.Props.EvolveScore
import Verif.Props.MainMoe

/-! # C146: `mergekit-evolve` from the command line to the final model -/

set_option linter.unusedSectionVars false

namespace Verif.Main

open Verif.ModelRef (Str Ref)
open Verif.Document
open Verif.CommandLine (Line Enough Called Event meaning valuesOf marksOf)
open Verif.Config (MergeConfig)
open Verif.Evolve (Benchmark)
open Verif.MultiMerge (pathJoin)
open Verif.Search (Reliable ByStrategy tried IsBest Apart renamed renameConfig resharded reshardPath)

variable {K D : Type}

/-! ## What is claimed -/

/-- What is said by one of the names of methods that can be searched over. -/
inductive MethodSays : Doc K → Genome.Method → Prop
  | linear : MethodSays (.str cs!"linear") .linear
  | taskArithmetic : MethodSays (.str cs!"task_arithmetic") .taskArithmetic
  | ties : MethodSays (.str cs!"ties") .ties
  | dareTies : MethodSays (.str cs!"dare_ties") .dareTies
  | slerp : MethodSays (.str cs!"slerp") .slerp

/-- A task: its name, or `{name: .., weight: .., metric: ..}`. -/
inductive TaskSays (L : Lib K) : Doc K → Evolve.Task K → Prop
  | name (s) : TaskSays L (.str s) ⟨s, L.ofInt 1, cs!"acc,none"⟩
  | fields {d n w m} : Has Text d cs!"name" n → Default (L.ofInt 1) (Number L) (d.lookup cs!"weight") w → Default cs!"acc,none" Text (d.lookup cs!"metric") m → TaskSays L (.dict d) ⟨n, w, m⟩

/-- The part of the document that says what is searched over. -/
structure GenomeSays (L : Lib K) (x : Doc K) (c : Genome.Definition) : Prop where
  fields : ∃ d ts, x = .dict d ∧ Has (Listed RefSays) d cs!"models" c.models ∧ Has MethodSays d cs!"merge_method" c.method ∧ Maybe RefSays (d.lookup cs!"base_model") c.baseModel ∧
    Maybe Text (d.lookup cs!"tokenizer_source") ts ∧ (c.tokenizerSource = true ↔ ∃ t, ts = some t ∧ t ≠ []) ∧ Default 0 (Integer L) (d.lookup cs!"layer_granularity") c.granularity ∧
    Maybe (Flag L) (d.lookup cs!"normalize") c.normalize ∧ Default false (Flag L) (d.lookup cs!"allow_negative_weights") c.allowNegative ∧
    Maybe (Listed Text) (d.lookup cs!"filters") c.filters ∧ Default false (Flag L) (d.lookup cs!"smooth") c.smooth
  based : c.method = .ties ∨ c.method = .dareTies ∨ c.method = .taskArithmetic → c.baseModel ≠ none
  slerp : c.method = .slerp → c.smooth = false ∧ ∀ f, c.filters = some f → f = []

/-- A document for a search. -/
structure EvoSays (L : Lib K) (d : List (Str × Doc K)) (c : EvoConf K) : Prop where
  genome : Has (GenomeSays L) d cs!"genome" c.genome
  tasks : Has (Listed (TaskSays L)) d cs!"tasks" c.tasks
  limit : Maybe (Integer L) (d.lookup cs!"limit") c.limit
  fewshot : Maybe (Integer L) (d.lookup cs!"num_fewshot") c.fewshot
  shuffle : Default false (Flag L) (d.lookup cs!"shuffle") c.shuffle
  randomInit : Default false (Flag L) (d.lookup cs!"random_init") c.randomInit
  chat : Default true (Flag L) (d.lookup cs!"apply_chat_template") c.chat
  multiturn : Default true (Flag L) (d.lookup cs!"fewshot_as_multiturn") c.multiturn

/-- The last value of an option, converted, or its default. -/
def ValueOr {A : Type} (f : Str → Option A) (default : A) (es : List Event) (o : CommandLine.Opt) (a : A) : Prop :=
  ((valuesOf o es).getLast? = none ∧ a = default) ∨ ∃ s, (valuesOf o es).getLast? = some s ∧ f s = some a

/-- The last value of an option, converted, if it is there. -/
def ValueIf {A : Type} (f : Str → Option A) (es : List Event) (o : CommandLine.Opt) (a : Option A) : Prop :=
  ((valuesOf o es).getLast? = none ∧ a = none) ∨ ∃ s b, (valuesOf o es).getLast? = some s ∧ f s = some b ∧ a = some b

/-- An option that is also written with a letter. -/
def oneOr (name form letter : Str) : CommandLine.Opt := { name, kind := .value, on := [cs!"--" ++ form, letter] }

/-- What a line of `mergekit-evolve` asks for. -/
structure AsksEvo [Field K] (W : EvoWorld K D) (es : List Event) (q : EvoLine K) : Prop where
  storage : (valuesOf (must cs!"storage_path" cs!"storage-path") es).getLast? = some q.storage
  maxFevals : ValueOr W.int 100 es (one cs!"max_fevals" cs!"max-fevals") q.maxFevals
  strategy : ((valuesOf (oneOr cs!"strategy" cs!"strategy" cs!"-s") es).getLast? = none ∧ q.strategy = cs!"pool") ∨
    ((valuesOf (oneOr cs!"strategy" cs!"strategy" cs!"-s") es).getLast? = some q.strategy ∧ (q.strategy = cs!"pool" ∨ q.strategy = cs!"buffered" ∨ q.strategy = cs!"serial"))
  vllm : (marksOf (yesNo cs!"vllm" cs!"vllm") es).getLast?.getD false = q.vllm
  inMemory : (marksOf (yesNo cs!"in_memory" cs!"in-memory") es).getLast?.getD false = q.inMemory
  numGpus : ValueIf W.int es (one cs!"num_gpus" cs!"num-gpus") q.numGpus
  cuda : (marksOf (yesNo cs!"merge_cuda" cs!"merge-cuda") es).getLast?.getD true = q.cuda
  trust : (marksOf (yesNo cs!"trust_remote_code" cs!"trust-remote-code") es).getLast?.getD false = q.trust
  crimes : (marksOf (yesNo cs!"allow_crimes" cs!"allow-crimes") es).getLast?.getD false = q.crimes
  seed : ValueOr W.int 0 es (one cs!"random_seed" cs!"random-seed") q.seed
  batch : ValueIf W.int es (one cs!"batch_size" cs!"batch-size") q.batch
  sigma : ValueOr W.float (1 / 6) es (one cs!"sigma0" cs!"sigma0") q.sigma
  wandb : (marksOf (yesNo cs!"use_wandb" cs!"wandb") es).getLast?.getD false = q.wandb
  taskPaths : valuesOf (several cs!"task_search_path" cs!"task-search-path") es = q.taskPaths
  allow : (marksOf (plainFlag cs!"allow_benchmark_tasks" cs!"i-understand-the-depths-of-the-evils-i-am-unleashing") es).getLast?.getD false = q.allow
  save : (marksOf (yesNo cs!"save_final_model" cs!"save-final-model") es).getLast?.getD true = q.save
  reshard : (marksOf (yesNo cs!"reshard" cs!"reshard") es).getLast?.getD true = q.reshard
  timeout : ValueIf W.float es (one cs!"timeout" cs!"timeout") q.timeout
  eight : (marksOf (plainFlag cs!"load_in_8bit" cs!"load-in-8bit") es).getLast?.getD false = q.eight
  four : (marksOf (plainFlag cs!"load_in_4bit" cs!"load-in-4bit") es).getLast?.getD false = q.four
  popsize : ValueIf W.int es (one cs!"force_population_size" cs!"force-population-size") q.popsize

/-- The ways of loading models that go together, and the libraries they need. -/
structure Loadable (W : EvoWorld K D) (q : EvoLine K) : Prop where
  one : ¬ (q.four = true ∧ q.eight = true)
  plain : q.four = true ∨ q.eight = true → q.vllm = false ∧ q.inMemory = false ∧ W.installed cs!"bitsandbytes" = true
  wandb : q.wandb = true → W.installed cs!"wandb" = true

/-- What a path holds once the models have been converted: what it held, or else the first of the models whose path it is. -/
def Filled (path : Ref → Str) (convert : Ref → Option D) (refs : List Ref) (disk disk' : Str → Option D) : Prop :=
  ∀ p, disk' p = match disk p with
    | some d => some d
    | none => (refs.find? (fun r => decide (path r = p))).bind convert

/-- The models of a definition. -/
def allModels (d : Genome.Definition) : List Ref := d.models ++ d.baseModel.toList

/-- The name a model has in the search: that of its converted copy under the storage path. -/
def copyOf (W : EvoWorld K D) (q : EvoLine K) (r : Ref) : Ref := resharded W.crc q.storage (pathJoin q.storage cs!"lora_merge_cache") r

/-- What is on disk and searched over: without conversion what is named, otherwise the copies, of which each is there. -/
inductive Prepares (W : EvoWorld K D) (q : EvoLine K) (d : Genome.Definition) : (Str → Option D) → Genome.Definition → Prop
  | asIs : q.reshard = false → Prepares W q d W.disk d
  | copies (disk') : q.reshard = true → Filled (fun r => (copyOf W q r).model.path) W.convert (allModels d) W.disk disk' →
      (∀ r ∈ allModels d, disk' (copyOf W q r).model.path ≠ none) → Prepares W q d disk' (renamed (copyOf W q) d)

/-- How many numbers there are for a model, a group of layers and a filter. -/
def numbersOf : Genome.Method → Nat
  | .ties => 2
  | .dareTies => 2
  | _ => 1

/-- Where a search begins: all models alike, or at random numbers. -/
structure Begins [Field K] (p : EvoPlan K D) (random : Nat → K) (x : List K) : Prop where
  size : x.length = (if p.conf.genome.granularity > 0 then p.genome.numLayers / p.conf.genome.granularity.toNat else 1) * p.conf.genome.models.length *
    ((p.conf.genome.filters.getD []).length + 1) * numbersOf p.conf.genome.method
  alike : p.conf.randomInit = false → ∀ i v, x[i]? = some v → v = if i % numbersOf p.conf.genome.method = 0 then 1 / (p.conf.genome.models.length : K) else 1
  random : p.conf.randomInit = true → ∀ i v, x[i]? = some v → v = random i

/-- Where and how the final model is written, if it is. -/
def Written (q : EvoLine K) : Option (Str × List (Str × CommandLine.FieldVal)) → Prop
  | none => q.save = false
  | some (dir, o) => q.save = true ∧ dir = pathJoin q.storage cs!"final_model" ∧
      o.lookup cs!"transformers_cache" = some (.str (pathJoin q.storage cs!"transformers_cache")) ∧ o.lookup cs!"lora_merge_cache" = some (.str (pathJoin q.storage cs!"lora_merge_cache")) ∧
      o.lookup cs!"cuda" = some (.bool q.cuda) ∧ o.lookup cs!"trust_remote_code" = some (.bool q.trust) ∧ o.lookup cs!"allow_crimes" = some (.bool q.crimes) ∧
      o.lookup cs!"random_seed" = some (.int q.seed) ∧ o.lookup cs!"copy_tokenizer" = some (.bool true) ∧ o.lookup cs!"safe_serialization" = some (.bool true) ∧
      o.lookup cs!"out_shard_size" = some (.int 1000000000000) ∧ o.lookup cs!"quiet" = some (.bool true) ∧
      (∀ b, o.lookup cs!"low_cpu_memory" = some (.bool b) → (b = true ↔ q.cuda = true ∧ q.inMemory = false)) ∧
      (∀ b, o.lookup cs!"read_to_gpu" = some (.bool b) → (b = true ↔ q.cuda = true ∧ q.inMemory = false)) ∧
      ∀ k, k ∈ o.map Prod.fst ↔ k ∈ [cs!"transformers_cache", cs!"lora_merge_cache", cs!"cuda", cs!"low_cpu_memory", cs!"out_shard_size", cs!"trust_remote_code", cs!"allow_crimes",
        cs!"random_seed", cs!"quiet", cs!"read_to_gpu", cs!"copy_tokenizer", cs!"safe_serialization"]

/-! ## The document -/

theorem evoMethod_iff (d : Doc K) (m : Genome.Method) : (∃ s, readStr d = .ok s ∧ evoMethod s = some m) ↔ MethodSays d m := by
  constructor
  · rintro ⟨s, h1, h2⟩
    cases (text_iff d s).1 h1
    unfold evoMethod at h2
    split at h2
    · rename_i h; subst h; cases h2; exact .linear
    split at h2
    · rename_i h; subst h; cases h2; exact .taskArithmetic
    split at h2
    · rename_i h; subst h; cases h2; exact .ties
    split at h2
    · rename_i h; subst h; cases h2; exact .dareTies
    split at h2
    · rename_i h; subst h; cases h2; exact .slerp
    · cases h2
  · intro h
    cases h <;> exact ⟨_, rfl, by decide⟩

theorem evoTask_iff {L : Lib K} (d : Doc K) (t : Evolve.Task K) : readTask L d = .ok t ↔ TaskSays L d t := by
  constructor
  · intro h
    cases d with
    | dict d =>
      obtain ⟨n, hn, h⟩ := bind_ok.1 h
      obtain ⟨w, hw, h⟩ := bind_ok.1 h
      obtain ⟨m, hm, h⟩ := bind_ok.1 h
      cases h
      exact .fields ((req_iff text_iff).1 hn) ((deflt_iff number_iff).1 hw) ((deflt_iff text_iff).1 hm)
    | str s => cases h; exact .name s
    | null => cases h
    | bool b => cases h
    | int i => cases h
    | float x => cases h
    | list l => cases h
  · intro h
    cases h with
    | name s => rfl
    | fields hn hw hm => exact bind_ok.2 ⟨_, (req_iff text_iff).2 hn, bind_ok.2 ⟨_, (deflt_iff number_iff).2 hw, bind_ok.2 ⟨_, (deflt_iff text_iff).2 hm, rfl⟩⟩⟩

theorem valid_iff (c : Genome.Definition) : c.valid = true ↔
    (c.method = .ties ∨ c.method = .dareTies ∨ c.method = .taskArithmetic → c.baseModel ≠ none) ∧ (c.method = .slerp → c.smooth = false ∧ ∀ f, c.filters = some f → f = []) := by
  obtain ⟨ms, m, b, t, g, n, a, fs, s⟩ := c
  unfold Genome.Definition.valid
  cases m <;> cases b <;> cases fs <;> simp

theorem nonempty_iff (ts : Option Str) : (!(ts.getD []).isEmpty) = true ↔ ∃ t, ts = some t ∧ t ≠ [] := by
  cases ts with
  | none => simp
  | some t => cases t <;> simp

theorem genome_iff {L : Lib K} (d : Doc K) (c : Genome.Definition) : readGenome L d = .ok c ↔ GenomeSays L d c := by
  constructor
  · intro h
    cases d with
    | dict d =>
      obtain ⟨ms, hms, h⟩ := bind_ok.1 h
      obtain ⟨mm, hmm, h⟩ := bind_ok.1 h
      obtain ⟨b, hb, h⟩ := bind_ok.1 h
      obtain ⟨ts, hts, h⟩ := bind_ok.1 h
      obtain ⟨g, hg, h⟩ := bind_ok.1 h
      obtain ⟨n, hn, h⟩ := bind_ok.1 h
      obtain ⟨a, ha, h⟩ := bind_ok.1 h
      obtain ⟨fs, hfs, h⟩ := bind_ok.1 h
      obtain ⟨s, hs, h⟩ := bind_ok.1 h
      obtain ⟨m, hm, h⟩ := bind_ok.1 h
      have hm' : evoMethod mm = some m := by
        cases he : evoMethod mm with
        | none => rw [he] at hm; cases hm
        | some m' => rw [he] at hm; cases hm; rfl
      dsimp only at h
      split at h
      · rename_i hv
        cases h
        obtain ⟨v1, v2⟩ := (valid_iff _).1 hv
        refine ⟨⟨d, ts, rfl, (req_iff (list_iff ref_iff)).1 hms, ?_, (opt_iff ref_iff).1 hb, (opt_iff text_iff).1 hts, nonempty_iff ts, (deflt_iff integer_iff).1 hg, (opt_iff flag_iff).1 hn,
          (deflt_iff flag_iff).1 ha, (opt_iff (list_iff text_iff)).1 hfs, (deflt_iff flag_iff).1 hs⟩, v1, v2⟩
        obtain ⟨v, hv1, hv2⟩ := (req_iff text_iff).1 hmm
        exact ⟨v, hv1, (evoMethod_iff v m).1 ⟨mm, (text_iff _ _).2 hv2, hm'⟩⟩
      · cases h
    | null => cases h
    | bool b => cases h
    | int i => cases h
    | float x => cases h
    | list l => cases h
    | str s => cases h
  · rintro ⟨⟨d, ts, rfl, hms, hmm, hb, hts, htok, hg, hn, ha, hfs, hs⟩, v1, v2⟩
    obtain ⟨ms, m, b, tok, g, n, a, fs, s⟩ := c
    obtain ⟨v, hv1, hv2⟩ := hmm
    obtain ⟨mm, hmm1, hmm2⟩ := (evoMethod_iff v m).2 hv2
    have htok' : tok = !(ts.getD []).isEmpty := by
      rw [Bool.eq_iff_iff]
      exact htok.trans (nonempty_iff ts).symm
    refine bind_ok.2 ⟨_, (req_iff (list_iff ref_iff)).2 hms, bind_ok.2 ⟨mm, (req_iff text_iff).2 ⟨v, hv1, (text_iff _ _).1 hmm1⟩, bind_ok.2 ⟨_, (opt_iff ref_iff).2 hb, bind_ok.2 ⟨_, (opt_iff text_iff).2 hts,
      bind_ok.2 ⟨_, (deflt_iff integer_iff).2 hg, bind_ok.2 ⟨_, (opt_iff flag_iff).2 hn, bind_ok.2 ⟨_, (deflt_iff flag_iff).2 ha, bind_ok.2 ⟨_, (opt_iff (list_iff text_iff)).2 hfs,
      bind_ok.2 ⟨_, (deflt_iff flag_iff).2 hs, bind_ok.2 ⟨m, by rw [hmm2]; rfl, ?_⟩⟩⟩⟩⟩⟩⟩⟩⟩⟩
    dsimp only
    rw [← htok']
    exact if_pos ((valid_iff _).2 ⟨v1, v2⟩)

/-- **C146** A document is read as a search exactly if it says one. -/
theorem C146_document (L : Lib K) (d : Doc K) (c : EvoConf K) : readEvo L d = .ok c ↔ ∃ x, d = .dict x ∧ EvoSays L x c := by
  constructor
  · intro h
    cases d with
    | dict d =>
      obtain ⟨g, hg, h⟩ := bind_ok.1 h
      obtain ⟨ts, hts, h⟩ := bind_ok.1 h
      obtain ⟨l, hl, h⟩ := bind_ok.1 h
      obtain ⟨f, hf, h⟩ := bind_ok.1 h
      obtain ⟨s, hs, h⟩ := bind_ok.1 h
      obtain ⟨r, hr, h⟩ := bind_ok.1 h
      obtain ⟨ch, hch, h⟩ := bind_ok.1 h
      obtain ⟨m, hm, h⟩ := bind_ok.1 h
      cases h
      exact ⟨d, rfl, (req_iff genome_iff).1 hg, (req_iff (list_iff evoTask_iff)).1 hts, (opt_iff integer_iff).1 hl, (opt_iff integer_iff).1 hf, (deflt_iff flag_iff).1 hs,
        (deflt_iff flag_iff).1 hr, (deflt_iff flag_iff).1 hch, (deflt_iff flag_iff).1 hm⟩
    | null => cases h
    | bool b => cases h
    | int i => cases h
    | float x => cases h
    | list l => cases h
    | str s => cases h
  · rintro ⟨x, rfl, hg, hts, hl, hf, hs, hr, hch, hm⟩
    exact bind_ok.2 ⟨_, (req_iff genome_iff).2 hg, bind_ok.2 ⟨_, (req_iff (list_iff evoTask_iff)).2 hts, bind_ok.2 ⟨_, (opt_iff integer_iff).2 hl, bind_ok.2 ⟨_, (opt_iff integer_iff).2 hf,
      bind_ok.2 ⟨_, (deflt_iff flag_iff).2 hs, bind_ok.2 ⟨_, (deflt_iff flag_iff).2 hr, bind_ok.2 ⟨_, (deflt_iff flag_iff).2 hch, bind_ok.2 ⟨_, (deflt_iff flag_iff).2 hm, rfl⟩⟩⟩⟩⟩⟩⟩⟩

/-! ## The line -/

theorem evolve_mem : CommandLine.evolve ∈ CommandLine.commands := by simp [CommandLine.commands]

theorem typed_or {A : Type} {f : Str → Option A} {default : A} {es : List Event} {o : CommandLine.Opt} {a : A} :
    typed f default (valuesOf o es).getLast? = some a ↔ ValueOr f default es o a := by
  unfold ValueOr typed
  cases (valuesOf o es).getLast? with
  | none => simp [eq_comm]
  | some s => simp

theorem typed_if {A : Type} {f : Str → Option A} {es : List Event} {o : CommandLine.Opt} {a : Option A} :
    typed (fun s => (f s).map some) none (valuesOf o es).getLast? = some a ↔ ValueIf f es o a := by
  unfold ValueIf typed
  cases (valuesOf o es).getLast? with
  | none => simp [eq_comm]
  | some s => simp [eq_comm]

theorem typed_strategy {w : Option Str} {a : Str} :
    typed (fun s => if s ∈ [cs!"pool", cs!"buffered", cs!"serial"] then some s else none) cs!"pool" w = some a ↔
      (w = none ∧ a = cs!"pool") ∨ (w = some a ∧ (a = cs!"pool" ∨ a = cs!"buffered" ∨ a = cs!"serial")) := by
  unfold typed
  cases w with
  | none => simp [eq_comm]
  | some s =>
    simp only
    constructor
    · intro h
      by_cases hm : s ∈ [cs!"pool", cs!"buffered", cs!"serial"]
      · rw [if_pos hm] at h
        cases h
        exact Or.inr ⟨rfl, by simpa only [List.mem_cons, List.not_mem_nil, or_false] using hm⟩
      · rw [if_neg hm] at h
        cases h
    · rintro (⟨h, -⟩ | ⟨h, hm⟩)
      · cases h
      · cases h
        exact if_pos (by simpa only [List.mem_cons, List.not_mem_nil, or_false] using hm)

theorem obind_some {A B : Type} {x : Option A} {f : A → Option B} {y : B} : (x >>= f) = some y ↔ ∃ a, x = some a ∧ f a = some y := by
  cases x with
  | none => simp
  | some a => simp

theorem evoLine_iff [Field K] (W : EvoWorld K D) {es : List Event} {args : List Str} {k : CommandLine.Call} (h1 : Enough CommandLine.evolve es args) (h2 : Called CommandLine.evolve es args k)
    (q : EvoLine K) : evoLine W k = some q ↔ AsksEvo W es q := by
  have hst : ∃ s, (valuesOf (must cs!"storage_path" cs!"storage-path") es).getLast? = some s := by
    have := h1.required (must cs!"storage_path" cs!"storage-path") (by decide +kernel) rfl
    unfold meaning at this
    rw [show (must cs!"storage_path" cs!"storage-path").kind = .value from rfl] at this
    simp only [ne_eq, Option.map_eq_none_iff] at this
    exact Option.ne_none_iff_exists'.1 this
  obtain ⟨st, hst⟩ := hst
  have w : ∀ {o : CommandLine.Opt}, o ∈ CommandLine.evolve.own → o.kind = .value → wordOf k o.name = (valuesOf o es).getLast? := fun ho hv => wordOf_called evolve_mem h2 ho hv
  have m : ∀ {o : CommandLine.Opt} (d : Bool), o ∈ CommandLine.evolve.own → o.kind = .flag → flagOf k o.name d = (marksOf o es).getLast?.getD d := fun d ho hv => flagOf_called evolve_mem h2 ho hv d
  have o1 := w (o := must cs!"storage_path" cs!"storage-path") (by decide +kernel) rfl
  have o2 := w (o := one cs!"max_fevals" cs!"max-fevals") (by decide +kernel) rfl
  have o3 := w (o := oneOr cs!"strategy" cs!"strategy" cs!"-s") (by decide +kernel) rfl
  have o4 := m (o := yesNo cs!"vllm" cs!"vllm") false (by decide +kernel) rfl
  have o5 := m (o := yesNo cs!"in_memory" cs!"in-memory") false (by decide +kernel) rfl
  have o6 := w (o := one cs!"num_gpus" cs!"num-gpus") (by decide +kernel) rfl
  have o7 := m (o := yesNo cs!"merge_cuda" cs!"merge-cuda") true (by decide +kernel) rfl
  have o8 := m (o := yesNo cs!"trust_remote_code" cs!"trust-remote-code") false (by decide +kernel) rfl
  have o9 := m (o := yesNo cs!"allow_crimes" cs!"allow-crimes") false (by decide +kernel) rfl
  have o10 := w (o := one cs!"random_seed" cs!"random-seed") (by decide +kernel) rfl
  have o11 := w (o := one cs!"batch_size" cs!"batch-size") (by decide +kernel) rfl
  have o12 := w (o := one cs!"sigma0" cs!"sigma0") (by decide +kernel) rfl
  have o13 := m (o := yesNo cs!"use_wandb" cs!"wandb") false (by decide +kernel) rfl
  have o14 := wordsOf_called evolve_mem h2 (o := several cs!"task_search_path" cs!"task-search-path") (by decide +kernel) rfl
  have o15 := m (o := plainFlag cs!"allow_benchmark_tasks" cs!"i-understand-the-depths-of-the-evils-i-am-unleashing") false (by decide +kernel) rfl
  have o16 := m (o := yesNo cs!"save_final_model" cs!"save-final-model") true (by decide +kernel) rfl
  have o17 := m (o := yesNo cs!"reshard" cs!"reshard") true (by decide +kernel) rfl
  have o18 := w (o := one cs!"timeout" cs!"timeout") (by decide +kernel) rfl
  have o19 := m (o := plainFlag cs!"load_in_8bit" cs!"load-in-8bit") false (by decide +kernel) rfl
  have o20 := m (o := plainFlag cs!"load_in_4bit" cs!"load-in-4bit") false (by decide +kernel) rfl
  have o21 := w (o := one cs!"force_population_size" cs!"force-population-size") (by decide +kernel) rfl
  simp only [must, one, oneOr, yesNo, plainFlag, several] at o1 o2 o3 o4 o5 o6 o7 o8 o9 o10 o11 o12 o13 o14 o15 o16 o17 o18 o19 o20 o21
  constructor
  · intro h
    unfold evoLine at h
    rw [o1, o2, o3, o4, o5, o6, o7, o8, o9, o10, o11, o12, o13, o14, o15, o16, o17, o18, o19, o20, o21] at h
    obtain ⟨a1, e1, h⟩ := obind_some.1 h
    obtain ⟨a2, e2, h⟩ := obind_some.1 h
    obtain ⟨a3, e3, h⟩ := obind_some.1 h
    obtain ⟨a4, e4, h⟩ := obind_some.1 h
    obtain ⟨a5, e5, h⟩ := obind_some.1 h
    obtain ⟨a6, e6, h⟩ := obind_some.1 h
    obtain ⟨a7, e7, h⟩ := obind_some.1 h
    obtain ⟨a8, e8, h⟩ := obind_some.1 h
    simp only [must] at hst
    rw [hst] at h
    cases h
    exact ⟨hst, typed_or.1 e1, typed_strategy.1 e2, rfl, rfl, typed_if.1 e3, rfl, rfl, rfl, typed_or.1 e4, typed_if.1 e5, typed_or.1 e6, rfl, rfl, rfl, rfl, rfl, typed_if.1 e7, rfl, rfl, typed_if.1 e8⟩
  · intro h
    unfold evoLine
    rw [o1, o2, o3, o4, o5, o6, o7, o8, o9, o10, o11, o12, o13, o14, o15, o16, o17, o18, o19, o20, o21]
    refine obind_some.2 ⟨_, typed_or.2 h.maxFevals, obind_some.2 ⟨_, typed_strategy.2 h.strategy, obind_some.2 ⟨_, typed_if.2 h.numGpus, obind_some.2 ⟨_, typed_or.2 h.seed,
      obind_some.2 ⟨_, typed_if.2 h.batch, obind_some.2 ⟨_, typed_or.2 h.sigma, obind_some.2 ⟨_, typed_if.2 h.timeout, obind_some.2 ⟨_, typed_if.2 h.popsize, ?_⟩⟩⟩⟩⟩⟩⟩⟩
    have g1 := h.storage
    have g4 := h.vllm
    have g5 := h.inMemory
    have g7 := h.cuda
    have g8 := h.trust
    have g9 := h.crimes
    have g13 := h.wandb
    have g14 := h.taskPaths
    have g15 := h.allow
    have g16 := h.save
    have g17 := h.reshard
    have g19 := h.eight
    have g20 := h.four
    simp only [must, yesNo, plainFlag, several] at g1 g4 g5 g7 g8 g9 g13 g14 g15 g16 g17 g19 g20
    rw [g1, g4, g5, g7, g8, g9, g13, g14, g15, g16, g17, g19, g20]
    rfl

/-! ## The models -/

theorem filled_append (path : Ref → Str) (convert : Ref → Option D) (l1 l2 : List Ref) (disk disk2 : Str → Option D) :
    (∃ d1, Filled path convert l1 disk d1 ∧ (∀ r ∈ l1, d1 (path r) ≠ none) ∧ Filled path convert l2 d1 disk2 ∧ ∀ r ∈ l2, disk2 (path r) ≠ none) ↔
      Filled path convert (l1 ++ l2) disk disk2 ∧ ∀ r ∈ l1 ++ l2, disk2 (path r) ≠ none := by
  have hkeep : ∀ (l : List Ref) (d d' : Str → Option D), Filled path convert l d d' → ∀ p, d p ≠ none → d' p = d p := by
    intro l d d' h p hp
    rw [h p]
    cases hd : d p with
    | none => exact absurd hd hp
    | some x => rfl
  have hfound : ∀ r ∈ l1, ∃ r0 ∈ l1, path r0 = path r ∧ l1.find? (fun r' => decide (path r' = path r)) = some r0 := by
    intro r hr
    cases hf : l1.find? (fun r' => decide (path r' = path r)) with
    | none =>
      have := List.find?_eq_none.1 hf r hr
      simp at this
    | some r0 => exact ⟨r0, List.mem_of_find?_eq_some hf, by simpa using List.find?_some hf, rfl⟩
  constructor
  · rintro ⟨d1, f1, n1, f2, n2⟩
    constructor
    · intro p
      rw [f2 p, List.find?_append]
      have e1 := f1 p
      cases hd : disk p with
      | some x => rw [hd] at e1; simp only at e1; rw [e1]
      | none =>
        rw [hd] at e1
        simp only at e1
        cases hf : l1.find? (fun r => decide (path r = p)) with
        | none =>
          rw [hf] at e1
          rw [e1]
          simp
        | some r0 =>
          have hp : path r0 = p := by simpa using List.find?_some hf
          have := n1 r0 (List.mem_of_find?_eq_some hf)
          rw [hp] at this
          rw [hf] at e1
          simp only [Option.bind_some] at e1
          cases hx : d1 p with
          | none => exact absurd hx this
          | some x => simp [← e1, hx]
    · intro r hr
      rcases List.mem_append.1 hr with hr | hr
      · rw [hkeep l2 d1 disk2 f2 _ (n1 r hr)]
        exact n1 r hr
      · exact n2 r hr
  · rintro ⟨f, n⟩
    refine ⟨fun p => match disk p with | some d => some d | none => (l1.find? (fun r => decide (path r = p))).bind convert, fun p => rfl, ?_, ?_, fun r hr => n r (by simp [hr])⟩
    · intro r hr
      have e := f (path r)
      have hn := n r (by simp [hr])
      obtain ⟨r0, h0, hp, hf⟩ := hfound r hr
      simp only
      cases hd : disk (path r) with
      | some x => simp
      | none =>
        rw [hd, List.find?_append, hf] at e
        simp only [Option.some_or, Option.bind_some] at e
        rw [hf]
        simp only [Option.bind_some]
        rw [← e]
        exact hn
    · intro p
      have e := f p
      rw [List.find?_append] at e
      simp only
      cases hd : disk p with
      | some x => rw [hd] at e; simpa using e
      | none =>
        rw [hd] at e
        simp only at e
        cases hf : l1.find? (fun r => decide (path r = p)) with
        | none =>
          rw [hf] at e
          simpa using e
        | some r0 =>
          have hp : path r0 = p := by simpa using List.find?_some hf
          rw [hf] at e
          simp only [Option.some_or, Option.bind_some] at e ⊢
          have := n r0 (by simp [List.mem_of_find?_eq_some hf])
          rw [hp, e] at this
          cases hc : convert r0 with
          | none => exact absurd hc this
          | some x => rw [e, hc]

theorem reshard_one (crc : Str → Nat) (storage cache : Str) (convert : Ref → Option D) (disk disk' : Str → Option D) (r r' : Ref) :
    Search.reshard crc storage cache convert none disk r = (disk', some r') ↔
      r' = resharded crc storage cache r ∧ Filled (reshardPath crc storage cache) convert [r] disk disk' ∧ ∀ s ∈ [r], disk' (reshardPath crc storage cache s) ≠ none := by
  unfold Search.reshard Filled
  simp only [List.mem_singleton, forall_eq, List.find?_cons, List.find?_nil]
  cases hd : disk (reshardPath crc storage cache r) with
  | some x =>
    simp only [Prod.mk.injEq, Option.some.injEq]
    constructor
    · rintro ⟨rfl, rfl⟩
      refine ⟨rfl, fun p => ?_, by rw [hd]; simp⟩
      cases hp : disk p with
      | some y => rfl
      | none =>
        have : reshardPath crc storage cache r ≠ p := fun h => by rw [h, hp] at hd; cases hd
        simp [this]
    · rintro ⟨rfl, h, -⟩
      refine ⟨?_, rfl⟩
      funext p
      rw [h p]
      cases hp : disk p with
      | some y => rfl
      | none =>
        have : reshardPath crc storage cache r ≠ p := fun h => by rw [h, hp] at hd; cases hd
        simp [this]
  | none =>
    cases hc : convert r with
    | none =>
      simp only [Prod.mk.injEq, reduceCtorEq, and_false, false_iff, not_and]
      rintro rfl h
      have := h (reshardPath crc storage cache r)
      rw [hd] at this
      simp only [decide_true, Option.bind_some, hc] at this
      simp [this]
    | some x =>
      simp only [Prod.mk.injEq, Option.some.injEq]
      have key : ∀ p, Function.update disk (reshardPath crc storage cache r) (some x) p =
          match disk p with
          | some d => some d
          | none => (match decide (reshardPath crc storage cache r = p) with | true => some r | false => none).bind convert := by
        intro p
        by_cases hp : p = reshardPath crc storage cache r
        · subst hp
          simp [hd, hc]
        · rw [Function.update_of_ne hp]
          have : ¬ reshardPath crc storage cache r = p := fun h => hp h.symm
          cases disk p <;> simp [this]
      constructor
      · rintro ⟨rfl, rfl⟩
        exact ⟨rfl, key, by simp⟩
      · rintro ⟨rfl, h, -⟩
        refine ⟨?_, rfl⟩
        funext p
        rw [key p, h p]
        cases disk p <;> by_cases hr : reshardPath crc storage cache r = p <;> simp [hr]

theorem reshardAll_iff (crc : Str → Nat) (storage cache : Str) (convert : Ref → Option D) (rs : List Ref) : ∀ (disk disk' : Str → Option D) (refs : List Ref),
    Search.reshardAll crc storage cache convert disk rs = (disk', some refs) ↔
      refs = rs.map (resharded crc storage cache) ∧ Filled (reshardPath crc storage cache) convert rs disk disk' ∧ ∀ s ∈ rs, disk' (reshardPath crc storage cache s) ≠ none := by
  induction rs with
  | nil =>
    intro disk disk' refs
    unfold Search.reshardAll Filled
    simp only [Prod.mk.injEq, Option.some.injEq, List.map_nil, List.find?_nil, Option.bind_none, List.not_mem_nil, false_imp_iff, implies_true, and_true]
    constructor
    · rintro ⟨rfl, rfl⟩
      exact ⟨rfl, fun p => by cases disk p <;> rfl⟩
    · rintro ⟨rfl, h⟩
      refine ⟨?_, rfl⟩
      funext p
      rw [h p]
      cases disk p <;> rfl
  | cons r rs ih =>
    intro disk disk' refs
    have happ := filled_append (reshardPath crc storage cache) convert [r] rs disk disk'
    rw [List.singleton_append] at happ
    rw [← happ]
    unfold Search.reshardAll
    constructor
    · intro h
      split at h
      · cases h
      · rename_i d1 r' hr
        dsimp only at h
        obtain ⟨e1, e2, e3⟩ := (reshard_one _ _ _ _ _ _ _ _).1 hr
        cases ha : Search.reshardAll crc storage cache convert d1 rs with
        | mk d2 o =>
          rw [ha] at h
          cases o with
          | none => simp at h
          | some l =>
            simp only [Option.map_some, Prod.mk.injEq, Option.some.injEq] at h
            obtain ⟨rfl, rfl⟩ := h
            obtain ⟨g1, g2, g3⟩ := (ih d1 d2 l).1 ha
            exact ⟨by rw [e1, g1]; rfl, d1, e2, e3, g2, g3⟩
    · rintro ⟨rfl, d1, e2, e3, g2, g3⟩
      rw [(reshard_one crc storage cache convert disk d1 r _).2 ⟨rfl, e2, e3⟩]
      dsimp only
      rw [(ih d1 disk' _).2 ⟨rfl, g2, g3⟩]
      rfl

theorem evoModels_iff (W : EvoWorld K D) (q : EvoLine K) (d d' : Genome.Definition) (disk' : Str → Option D) :
    evoModels W q d = (disk', some d') ↔ Prepares W q d disk' d' := by
  unfold evoModels
  cases hq : q.reshard with
  | false =>
    simp only [Bool.false_eq_true, if_false, Prod.mk.injEq, Option.some.injEq]
    constructor
    · rintro ⟨rfl, rfl⟩
      exact .asIs hq
    · intro h
      cases h with
      | asIs => exact ⟨rfl, rfl⟩
      | copies _ h => rw [hq] at h; cases h
  | true =>
    simp only [if_true]
    have goal : Prepares W q d disk' d' ↔ d' = renamed (copyOf W q) d ∧ Filled (reshardPath W.crc q.storage (pathJoin q.storage cs!"lora_merge_cache")) W.convert (allModels d) W.disk disk' ∧
        ∀ r ∈ allModels d, disk' (reshardPath W.crc q.storage (pathJoin q.storage cs!"lora_merge_cache") r) ≠ none := by
      constructor
      · intro h
        cases h with
        | asIs h => rw [hq] at h; cases h
        | copies _ _ h1 h2 => exact ⟨rfl, h1, h2⟩
      · rintro ⟨rfl, h1, h2⟩
        exact .copies _ hq h1 h2
    rw [goal]
    unfold allModels
    rw [← filled_append]
    constructor
    · intro h
      split at h
      · cases h
      · rename_i d1 ms hms
        obtain ⟨e1, e2, e3⟩ := (reshardAll_iff _ _ _ _ _ _ _ _).1 hms
        split at h
        · rename_i hb
          cases h
          refine ⟨by rw [e1]; unfold renamed copyOf; rw [hb]; rfl, disk', e2, e3, ?_⟩
          rw [hb]
          exact ⟨fun p => by cases disk' p <;> rfl, by simp⟩
        · rename_i b hb
          split at h
          · cases h
          · rename_i d2 b' hb'
            cases h
            obtain ⟨g1, g2, g3⟩ := (reshard_one _ _ _ _ _ _ _ _).1 hb'
            refine ⟨by rw [e1, g1]; unfold renamed copyOf; rw [hb]; rfl, d1, e2, e3, ?_⟩
            rw [hb]
            exact ⟨g2, g3⟩
    · rintro ⟨rfl, d1, e2, e3, g2, g3⟩
      rw [(reshardAll_iff _ _ _ _ _ _ _ _).2 ⟨rfl, e2, e3⟩]
      dsimp only
      cases hb : d.baseModel with
      | none =>
        rw [hb] at g2
        have : disk' = d1 := by
          funext p
          rw [g2 p]
          cases d1 p <;> rfl
        rw [this]
        dsimp only
        unfold renamed copyOf
        rw [hb]
        rfl
      | some b =>
        rw [hb] at g2 g3
        dsimp only
        rw [(reshard_one _ _ _ _ _ _ _ _).2 ⟨rfl, g2, g3⟩]
        dsimp only
        unfold renamed copyOf
        rw [hb]
        rfl

/-! ## The beginning -/

theorem evoChecks_iff (W : EvoWorld K D) (q : EvoLine K) : evoChecks W q = none ↔ Loadable W q := by
  unfold evoChecks
  constructor
  · intro h
    cases h4 : q.four <;> cases h8 : q.eight <;> cases hv : q.vllm <;> cases hm : q.inMemory <;> cases hb : W.installed cs!"bitsandbytes" <;> cases hw : q.wandb <;>
      cases hi : W.installed cs!"wandb" <;> simp [h4, h8, hv, hm, hb, hw, hi] at h <;> exact ⟨by simp [h4, h8], by simp [h4, h8, hv, hm, hb], by simp [hw, hi]⟩
  · rintro ⟨h1, h2, h3⟩
    cases h4 : q.four <;> cases h8 : q.eight <;> cases hv : q.vllm <;> cases hm : q.inMemory <;> cases hb : W.installed cs!"bitsandbytes" <;> cases hw : q.wandb <;>
      cases hi : W.installed cs!"wandb" <;> simp [h4, h8, hv, hm, hb, hw, hi] at h1 h2 h3 ⊢

theorem create_iff (d : Genome.Definition) (layersOf : Ref → Nat) (g : Genome.Genome) : Genome.create d layersOf = .ok g ↔
    g.definition = d ∧ (∃ m ms, d.models = m :: ms ∧ g.numLayers = layersOf m) ∧ (d.granularity < 1 ∨ d.granularity ∣ (g.numLayers : Int)) := by
  unfold Genome.create
  cases hm : d.models with
  | nil => simp
  | cons m ms =>
    simp only [List.cons.injEq]
    constructor
    · intro h
      split at h
      · rename_i hc
        cases h
        exact ⟨rfl, ⟨m, ms, ⟨rfl, rfl⟩, rfl⟩, hc.imp id Int.dvd_of_emod_eq_zero⟩
      · cases h
    · rintro ⟨rfl, ⟨m', ms', ⟨rfl, rfl⟩, hn⟩, hc⟩
      rw [if_pos (hc.imp id (fun h => by rw [← hn]; exact Int.emod_eq_zero_of_dvd h)), ← hn]

/-- **C146** When a search begins, and with what: exactly if the line is right, the file it names is there and is YAML that says a search, none of the tasks is a benchmark (unless that is asked for), the
ways of loading go together, the models can be converted (unless that is not wanted), and the groups of layers come out even.  The search is then over the copies of the models. -/
theorem C146_starts [Field K] (W : EvoWorld K D) {line : List Str} (l : Line CommandLine.evolve.opts line) (p : EvoPlan K D) :
    evoStart W line = .ok p ↔ ∃ k F text x, Enough CommandLine.evolve l.events l.args ∧ Called CommandLine.evolve l.events l.args k ∧ l.args = [F] ∧ AsksEvo W l.events p.line ∧
      W.file F = some text ∧ W.yaml text = some (.dict x) ∧ EvoSays W.lib x p.conf ∧ (p.line.allow = true ∨ ∀ t ∈ p.conf.tasks, ¬ Benchmark t.name) ∧ Loadable W p.line ∧
      Prepares W p.line p.conf.genome p.disk p.genome.definition ∧ (∃ m ms, p.genome.definition.models = m :: ms ∧ p.genome.numLayers = W.layers p.disk m) ∧
      (p.conf.genome.granularity < 1 ∨ p.conf.genome.granularity ∣ (p.genome.numLayers : Int)) := by
  have hone : ∀ a : List Str, a.length = 1 → ∃ F, a = [F] := by
    intro a ha
    match a, ha with
    | [F], _ => exact ⟨F, rfl⟩
  have hargument : ∀ {k : CommandLine.Call} {F : Str}, k.args = CommandLine.evolve.args.zip [F] → argument k cs!"genome_config_path" = F := by
    intro k F h
    unfold argument
    rw [h]
    rfl
  have hgran : ∀ {q : EvoLine K} {d d' : Genome.Definition} {disk' : Str → Option D}, Prepares W q d disk' d' → d'.granularity = d.granularity := by
    intro q d d' disk' h
    cases h <;> rfl
  constructor
  · intro h
    unfold evoStart at h
    cases hk : CommandLine.call CommandLine.evolve line with
    | error e => rw [hk] at h; cases h
    | ok k =>
      rw [hk] at h
      simp only at h
      obtain ⟨h1, h2⟩ := (CommandLine.C128_call evolve_mem l k).1 hk
      obtain ⟨F, hF⟩ := hone l.args h1.args
      have hargs := h2.args
      rw [hF] at hargs
      rw [hargument hargs] at h
      cases hq : evoLine W k with
      | none => rw [hq] at h; cases h
      | some q =>
        rw [hq] at h
        simp only at h
        cases hf : W.file F with
        | none => rw [hf] at h; cases h
        | some text =>
          rw [hf] at h
          simp only at h
          cases hy : W.yaml text with
          | none => rw [hy] at h; cases h
          | some d =>
            rw [hy] at h
            simp only at h
            cases hr : readEvo W.lib d with
            | error e => rw [hr] at h; cases h
            | ok c =>
              rw [hr] at h
              simp only at h
              cases hg : Evolve.guard q.allow (c.tasks.map (·.name)) 0 with
              | none => rw [hg] at h; cases h
              | some n =>
                rw [hg] at h
                simp only at h
                cases hc : evoChecks W q with
                | some e => rw [hc] at h; cases h
                | none =>
                  rw [hc] at h
                  simp only at h
                  split at h
                  · cases h
                  · rename_i disk d' hm
                    cases hcr : Genome.create d' (W.layers disk) with
                    | error e => rw [hcr] at h; cases h
                    | ok g =>
                      rw [hcr] at h
                      cases h
                      obtain ⟨x, rfl, hx⟩ := (C146_document _ _ _).1 hr
                      have hp := (evoModels_iff W q c.genome d' disk).1 hm
                      obtain ⟨rfl, g2, g3⟩ := (create_iff _ _ _).1 hcr
                      refine ⟨k, F, text, x, h1, h2, hF, (evoLine_iff W h1 h2 q).1 hq, hf, hy, hx, ?_, (evoChecks_iff W q).1 hc, hp, g2, by rw [← hgran hp]; exact g3⟩
                      cases ha : q.allow with
                      | true => exact Or.inl rfl
                      | false =>
                        refine Or.inr fun t ht hb => ?_
                        have := (Evolve.C87_refused q.allow (c.tasks.map (·.name)) 0).2 ⟨ha, t.name, List.mem_map.2 ⟨t, ht, rfl⟩, hb⟩
                        rw [hg] at this
                        cases this
  · rintro ⟨k, F, text, x, h1, h2, hF, hq, hf, hy, hx, hallow, hl, hp, hm, hgr⟩
    have hk := (CommandLine.C128_call evolve_mem l k).2 ⟨h1, h2⟩
    have hargs := h2.args
    rw [hF] at hargs
    obtain ⟨q, c, g, disk⟩ := p
    simp only at hq hx hallow hl hp hm hgr
    unfold evoStart
    rw [hk]
    simp only
    rw [(evoLine_iff W h1 h2 q).2 hq]
    simp only
    rw [hargument hargs, hf]
    simp only
    rw [hy]
    simp only
    rw [(C146_document _ _ _).2 ⟨x, rfl, hx⟩]
    simp only
    have hg : ∃ n, Evolve.guard q.allow (c.tasks.map (·.name)) 0 = some n := by
      cases hg : Evolve.guard q.allow (c.tasks.map (·.name)) 0 with
      | some n => exact ⟨n, rfl⟩
      | none =>
        obtain ⟨ha, t, ht, hb⟩ := (Evolve.C87_refused _ _ _).1 hg
        rcases hallow with h | h
        · rw [h] at ha; cases ha
        · obtain ⟨t', ht', rfl⟩ := List.mem_map.1 ht
          exact absurd hb (h t' ht')
    obtain ⟨n, hg⟩ := hg
    rw [hg]
    simp only
    rw [(evoChecks_iff W q).2 hl]
    simp only
    rw [(evoModels_iff W q c.genome g.definition disk).2 hp]
    simp only
    rw [(create_iff g.definition (W.layers disk) g).2 ⟨rfl, hm, by rw [hgran hp]; exact hgr⟩]

/-- **C146** All models being convertible, their copies being what is on disk already if anything is, and models that share a path being the same, every copy is what its model is converted to. -/
theorem C146_copies (W : EvoWorld K D) (q : EvoLine K) (d d' : Genome.Definition) (disk' : Str → Option D) (hq : q.reshard = true) (h : Prepares W q d disk' d')
    (hold : ∀ r ∈ allModels d, ∀ x, W.disk (copyOf W q r).model.path = some x → W.convert r = some x)
    (hsame : ∀ r ∈ allModels d, ∀ r' ∈ allModels d, (copyOf W q r).model.path = (copyOf W q r').model.path → W.convert r = W.convert r') :
    (∀ r ∈ allModels d, W.convert r ≠ none ∧ disk' (copyOf W q r).model.path = W.convert r) ∧
      ∀ p, (∀ r ∈ allModels d, (copyOf W q r).model.path ≠ p) → disk' p = W.disk p := by
  cases h with
  | asIs h => rw [hq] at h; cases h
  | copies _ _ hf hn =>
    constructor
    · intro r hr
      have key : disk' (copyOf W q r).model.path = W.convert r := by
        have e := hf (copyOf W q r).model.path
        cases hd : W.disk (copyOf W q r).model.path with
        | some x =>
          rw [hd] at e
          rw [e, hold r hr x hd]
        | none =>
          rw [hd] at e
          simp only at e
          cases hx : (allModels d).find? (fun r' => decide ((copyOf W q r').model.path = (copyOf W q r).model.path)) with
          | none =>
            have := List.find?_eq_none.1 hx r hr
            simp at this
          | some r0 =>
            rw [hx] at e
            rw [e, Option.bind_some]
            exact hsame r0 (List.mem_of_find?_eq_some hx) r hr (by simpa using List.find?_some hx)
      exact ⟨by rw [← key]; exact hn r hr, key⟩
    · intro p hp
      have e := hf p
      cases hd : W.disk p with
      | some x => rw [hd] at e; exact e
      | none =>
        rw [hd] at e
        rw [e]
        have : (allModels d).find? (fun r => decide ((copyOf W q r).model.path = p)) = none := List.find?_eq_none.2 fun r hr => by simpa using hp r hr
        simp only [this, Option.bind_none]

/-! ## The end -/

/-- The names of the models in the search. -/
def searchName (W : EvoWorld K D) (q : EvoLine K) (r : Ref) : Ref := if q.reshard then copyOf W q r else r

theorem prepares_renamed {W : EvoWorld K D} {q : EvoLine K} {d d' : Genome.Definition} {disk' : Str → Option D} (h : Prepares W q d disk' d') : d' = renamed (searchName W q) d := by
  cases h with
  | asIs h =>
    have : searchName W q = id := by
      funext r
      unfold searchName
      rw [h]
      rfl
    rw [this]
    unfold renamed Search.withRefs
    cases d
    simp
  | copies _ h =>
    have : searchName W q = copyOf W q := by
      funext r
      unfold searchName
      rw [h]
      rfl
    rw [this]

theorem begins_first [Field K] [LinearOrder K] {W : EvoWorld K D} {p : EvoPlan K D} (hp : Prepares W p.line p.conf.genome p.disk p.genome.definition) (random : Nat → K) :
    Begins p random (evoFirst p random) := by
  have hdef := prepares_renamed hp
  have hpar : p.genome.definition.method.params.length = numbersOf p.conf.genome.method := by
    rw [hdef]
    show p.conf.genome.method.params.length = _
    cases p.conf.genome.method <;> rfl
  have hlen : p.genome.definition.models.length = p.conf.genome.models.length := by
    rw [hdef]
    unfold renamed Search.withRefs
    simp
  have hgr : p.genome.groups = if p.conf.genome.granularity > 0 then p.genome.numLayers / p.conf.genome.granularity.toNat else 1 := by
    unfold Genome.Genome.groups
    rw [hdef]
    rfl
  have hsets : p.genome.sets = (p.conf.genome.filters.getD []).length + 1 := by
    unfold Genome.Genome.sets
    rw [hdef]
    rfl
  unfold evoFirst Genome.Genome.initial
  dsimp only
  rw [hpar, hlen, hgr, hsets]
  refine ⟨?_, ?_, ?_⟩
  · split <;> simp
  · intro hr i v hv
    rw [hr] at hv
    simp only [Bool.false_eq_true, if_false] at hv
    rw [List.getElem?_map] at hv
    obtain ⟨j, hj, rfl⟩ := Option.map_eq_some_iff.1 hv
    obtain ⟨hlt, he⟩ := List.getElem?_eq_some_iff.1 hj
    rw [List.getElem_range] at he
    subst he
    rfl
  · intro hr i v hv
    rw [hr] at hv
    simp only [if_true] at hv
    rw [List.getElem?_map] at hv
    obtain ⟨j, hj, rfl⟩ := Option.map_eq_some_iff.1 hv
    obtain ⟨hlt, he⟩ := List.getElem?_eq_some_iff.1 hj
    rw [List.getElem_range] at he
    subst he
    rfl

theorem written_of (q : EvoLine K) : Written q (if q.save then some (pathJoin q.storage cs!"final_model", evoOptions q) else none) := by
  cases h : q.save with
  | false => exact h
  | true =>
    refine ⟨h, rfl, rfl, rfl, rfl, rfl, rfl, rfl, rfl, rfl, rfl, rfl, ?_, ?_, ?_⟩
    · intro b hb
      have : b = (q.cuda && !q.inMemory) := by
        have e : (evoOptions q).lookup cs!"low_cpu_memory" = some (.bool (q.cuda && !q.inMemory)) := rfl
        rw [e] at hb
        cases hb
        rfl
      rw [this]
      simp
    · intro b hb
      have : b = (q.cuda && !q.inMemory) := by
        have e : (evoOptions q).lookup cs!"read_to_gpu" = some (.bool (q.cuda && !q.inMemory)) := rfl
        rw [e] at hb
        cases hb
        rfl
      rw [this]
      simp
    · intro k
      exact Iff.rfl

theorem id_apart (d : Genome.Definition) : Apart id d := fun _ _ _ _ h => h

/-- **C146** From the command line to the final model: when a search has begun, its models are told apart by the names of their copies and a copy has as many layers as its model, then after any number of
generations - whatever the optimiser asks for, which is told the first point, the step size and the limits of the line - however the genotypes are scored by the strategies, and whether the search comes to
its end or is interrupted: what is merged in the end is the configuration of the first of the best genotypes tried, for the models named in the document, by the method named there and in bfloat16; it goes to
`final_model` under the storage path with the options of the line, unless no final model is wanted; and `best_config.yaml` says the same of the copies. -/
theorem C146_final {P E : Type} [Field K] [LinearOrder K] [IsStrictOrderedRing K] (W : EvoWorld K D) (ops : Genome.Ops K) {line : List Str} (l : Line CommandLine.evolve.opts line) {p : EvoPlan K D}
    (hstart : evoStart W line = .ok p) (hapart : Apart (searchName W p.line) p.conf.genome)
    (hlayers : ∀ m ms, p.conf.genome.models = m :: ms → W.layers p.disk m = W.layers p.disk (searchName W p.line m))
    (w : Evolve.World (List K) P K E) (score : List K → K) (hw : Reliable w score) (random : Nat → K)
    (evaluate : Nat → List (List K) → Option (List (Option K))) (he : ∀ n xs, ByStrategy w xs (evaluate n xs))
    (ask : CmaSettings K → List K → List (List K × K) → List (List K)) (n : Nat) (s : Search.State K) (h : evoSearch ops p random evaluate ask n = some s) :
    ∃ x0, Begins p random x0 ∧ ∀ settings : CmaSettings K, settings = ⟨p.line.sigma, p.line.maxFevals, p.line.timeout, p.line.popsize⟩ → tried (ask settings x0) score n ≠ [] →
      ∃ x cfg saved, IsBest (tried (ask settings x0) score n) score x ∧ Genome.mergeConfig ops ⟨p.conf.genome, p.genome.numLayers⟩ (.flat x) = .ok cfg ∧ Written p.line saved ∧
        (∀ interrupted, evoEnd W ops p interrupted s = .ok ⟨p.conf.genome.method, cs!"bfloat16", cfg, saved⟩) ∧ s.file = some (renameConfig (searchName W p.line) cfg) := by
  obtain ⟨k, F, text, y, -, -, -, -, -, -, -, -, -, hp, ⟨m, ms, hm, hnum⟩, hgr⟩ := (C146_starts W l p).1 hstart
  refine ⟨evoFirst p random, begins_first hp random, ?_⟩
  rintro settings rfl hne
  have hd := prepares_renamed hp
  have hgen : p.genome = ⟨renamed (searchName W p.line) (Genome.Genome.mk p.conf.genome p.genome.numLayers).definition, (Genome.Genome.mk p.conf.genome p.genome.numLayers).numLayers⟩ := by
    show p.genome = ⟨renamed (searchName W p.line) p.conf.genome, p.genome.numLayers⟩
    rw [← hd]
  unfold evoSearch at h
  rw [hgen] at h
  obtain ⟨x, cfg, h1, h2, h3, h4⟩ := Search.C125_report ops (searchName W p.line) (Genome.Genome.mk p.conf.genome p.genome.numLayers) hapart w score hw evaluate he _ _ n s h hne
  refine ⟨x, cfg, _, h1, h3, written_of p.line, ?_, h4⟩
  intro interrupted
  unfold evoEnd
  rw [h2 interrupted]
  simp only
  have hcreate : Genome.create p.conf.genome (W.layers p.disk) = .ok ⟨p.conf.genome, p.genome.numLayers⟩ := by
    refine (create_iff _ _ _).2 ⟨rfl, ?_, hgr⟩
    rw [hd] at hm
    cases hc : p.conf.genome.models with
    | nil =>
      unfold renamed Search.withRefs at hm
      rw [hc] at hm
      cases hm
    | cons m0 ms0 =>
      refine ⟨m0, ms0, rfl, ?_⟩
      unfold renamed Search.withRefs at hm
      rw [hc] at hm
      simp only [List.map_cons, List.cons.injEq] at hm
      show p.genome.numLayers = _
      rw [hnum, ← hm.1, hlayers m0 ms0 hc]
  rw [hcreate]
  simp only
  rw [h3]

/-- **C146** fails for an interrupt before the first generation has been scored: no genotype has been tried, and yet the merge of the first point - of random numbers, if the document says so - is
reported as the best and written as the final model. -/
theorem C146_interrupted [Field K] [LinearOrder K] (W : EvoWorld K D) (ops : Genome.Ops K) {line : List Str} (l : Line CommandLine.evolve.opts line) {p : EvoPlan K D}
    (hstart : evoStart W line = .ok p) (hlayers : ∀ m ms, p.conf.genome.models = m :: ms → W.layers p.disk m = W.layers p.disk (searchName W p.line m)) (random : Nat → K)
    (evaluate : Nat → List (List K) → Option (List (Option K))) (ask : CmaSettings K → List K → List (List K × K) → List (List K)) :
    ∃ x0 s, Begins p random x0 ∧ evoSearch ops p random evaluate ask 0 = some s ∧ s.seen = [] ∧ s.file = none ∧
      ∀ cfg, Genome.mergeConfig ops ⟨p.conf.genome, p.genome.numLayers⟩ (.flat x0) = .ok cfg →
        ∃ saved, Written p.line saved ∧ evoEnd W ops p true s = .ok ⟨p.conf.genome.method, cs!"bfloat16", cfg, saved⟩ := by
  obtain ⟨k, F, text, y, -, -, -, -, -, -, -, -, -, hp, ⟨m, ms, hm, hnum⟩, hgr⟩ := (C146_starts W l p).1 hstart
  refine ⟨evoFirst p random, { best := (evoFirst p random, none) }, begins_first hp random, rfl, rfl, rfl, ?_⟩
  intro cfg hcfg
  refine ⟨_, written_of p.line, ?_⟩
  have hd := prepares_renamed hp
  unfold evoEnd Search.chosen
  simp only [if_true]
  have hcreate : Genome.create p.conf.genome (W.layers p.disk) = .ok ⟨p.conf.genome, p.genome.numLayers⟩ := by
    refine (create_iff _ _ _).2 ⟨rfl, ?_, hgr⟩
    rw [hd] at hm
    cases hc : p.conf.genome.models with
    | nil =>
      unfold renamed Search.withRefs at hm
      rw [hc] at hm
      cases hm
    | cons m0 ms0 =>
      refine ⟨m0, ms0, rfl, ?_⟩
      unfold renamed Search.withRefs at hm
      rw [hc] at hm
      simp only [List.map_cons, List.cons.injEq] at hm
      show p.genome.numLayers = _
      rw [hnum, ← hm.1, hlayers m0 ms0 hc]
  rw [hcreate]
  simp only
  rw [hcfg]

/-! ## A case -/

/-- A document: two models, linear, and one task. -/
def evoDoc : Doc ℚ :=
  .dict [(cs!"genome", .dict [(cs!"models", .list [.str cs!"m/a", .str cs!"m/b"]), (cs!"merge_method", .str cs!"linear")]), (cs!"tasks", .list [.str cs!"my_task"])]

/-- Surroundings in which every model has two layers and is converted to the length of its path. -/
def evoWorld (L : Lib ℚ) (doc : Doc ℚ) : EvoWorld ℚ Nat where
  file := fun f => if f = cs!"g.yml" then some cs!"text" else none
  yaml := fun _ => some doc
  lib := L
  int := ModelRef.pyInt
  float := fun _ => none
  installed := fun _ => false
  crc := List.length
  convert := fun r => some r.model.path.length
  layers := fun _ _ => 2
  disk := fun _ => none

def evolveLine : Line CommandLine.evolve.opts [cs!"g.yml", cs!"--storage-path", cs!"st", cs!"--max-fevals", cs!"6"] where
  uses := [.plain cs!"g.yml", .next { CommandLine.valued cs!"storage_path" with required := true } cs!"--storage-path" cs!"st",
    .next (CommandLine.valued cs!"max_fevals") cs!"--max-fevals" cs!"6"]
  after := none
  fits := by
    intro u hu
    simp only [List.mem_cons, List.not_mem_nil, or_false] at hu
    rcases hu with rfl | rfl | rfl
    · exact show ¬ _ by decide
    · exact ⟨by decide +kernel, by decide +kernel, by decide +kernel, by decide +kernel⟩
    · exact ⟨by decide +kernel, by decide +kernel, by decide +kernel, by decide +kernel⟩
  written := by decide +kernel

/-- A search in these surroundings. -/
def evoCase : Except EvoErr (EvoPlan ℚ Nat) := evoStart (evoWorld exLib evoDoc) [cs!"g.yml", cs!"--storage-path", cs!"st", cs!"--max-fevals", cs!"6"]

theorem evoCase_ok : ∃ p, evoCase = .ok p := ⟨_, rfl⟩

/-- The hypotheses of C146 are met: six evaluations of two models, of which the optimiser tries the corners and the middle; the first of the best is merged, and interrupted before that the middle is. -/
theorem C146_case : ∃ p, evoCase = .ok p ∧ p.line.maxFevals = 6 ∧ p.line.sigma = 1 / 6 ∧ p.genome.definition.models.map (·.model.path) = [cs!"st/input_models/a_3", cs!"st/input_models/b_3"] ∧
    (∃ s, evoSearch Search.someOps p (fun _ => 0) (fun _ xs => Search.collect (Search.serial Search.steady xs)) (fun _ _ => Search.corners) 3 = some s ∧
      ∃ x cfg o, IsBest (tried Search.corners Search.aim 3) Search.aim x ∧ Genome.mergeConfig Search.someOps ⟨p.conf.genome, 2⟩ (.flat x) = .ok cfg ∧
        evoEnd (evoWorld exLib evoDoc) Search.someOps p false s = .ok ⟨.linear, cs!"bfloat16", cfg, some (cs!"st/final_model", o)⟩) ∧
    ∃ s r, evoSearch Search.someOps p (fun _ => 0) (fun _ xs => Search.collect (Search.serial Search.steady xs)) (fun _ _ => Search.corners) 0 = some s ∧ s.seen = [] ∧
      evoEnd (evoWorld exLib evoDoc) Search.someOps p true s = .ok r ∧ r.saved.map Prod.fst = some cs!"st/final_model" := by
  have hall : ∀ p, evoCase = .ok p → p.line.maxFevals = 6 ∧ p.line.sigma = 1 / 6 ∧ p.line.storage = cs!"st" ∧ p.line.save = true ∧ p.line.reshard = true ∧ p.genome.numLayers = 2 ∧
      p.conf.genome.method = .linear ∧ p.conf.genome.models = [Genome.named cs!"m/a", Genome.named cs!"m/b"] ∧ p.conf.genome.baseModel = none ∧
      p.genome.definition.models.map (·.model.path) = [cs!"st/input_models/a_3", cs!"st/input_models/b_3"] := by
    intro p h
    unfold evoCase at h
    cases h
    exact ⟨rfl, rfl, rfl, rfl, rfl, rfl, rfl, rfl, rfl, rfl⟩
  obtain ⟨p, hp⟩ := evoCase_ok
  obtain ⟨e1, e2, e3, e4, e5, e6, e7, e8, e9, e10⟩ := hall p hp
  have hrun : (match evoCase with
      | .ok p => (evoSearch Search.someOps p (fun _ => 0) (fun _ xs => Search.collect (Search.serial Search.steady xs)) (fun _ _ => Search.corners) 3).bind (Search.chosen false)
      | .error _ => none) = some [0, 1] := by decide +kernel
  have hfirst : (match evoCase with
      | .ok p => (Genome.mergeConfig Search.someOps ⟨p.conf.genome, p.genome.numLayers⟩ (.flat (evoFirst p (fun _ => 0)))).isOk
      | .error _ => false) = true := by decide +kernel
  rw [hp] at hrun hfirst
  simp only at hrun hfirst
  have hlay : ∀ m ms, p.conf.genome.models = m :: ms → (evoWorld exLib evoDoc).layers p.disk m = (evoWorld exLib evoDoc).layers p.disk (searchName (evoWorld exLib evoDoc) p.line m) := fun _ _ _ => rfl
  obtain ⟨s, hs, hc⟩ := Option.bind_eq_some_iff.1 hrun
  refine ⟨p, hp, e1, e2, e10, ?_, ?_⟩
  · have hap : Apart (searchName (evoWorld exLib evoDoc) p.line) p.conf.genome := by
      have hn : searchName (evoWorld exLib evoDoc) p.line = resharded List.length p.line.storage (pathJoin p.line.storage cs!"lora_merge_cache") := by
        funext r
        unfold searchName
        rw [e5]
        rfl
      rw [hn, e3]
      apply Search.C125_apart
      rw [e8, e9]
      decide +kernel
    obtain ⟨x0, -, h⟩ := C146_final (evoWorld exLib evoDoc) Search.someOps evolveLine hp hap hlay Search.steady Search.aim Search.steady_reliable (fun _ => 0)
      (fun _ xs => Search.collect (Search.serial Search.steady xs)) (fun _ _ => .serial) (fun _ _ => Search.corners) 3 s hs
    obtain ⟨x, cfg, saved, g1, g2, g3, g4, -⟩ := h _ rfl (by decide +kernel)
    rw [e6] at g2
    rw [e7] at g4
    cases saved with
    | none =>
      unfold Written at g3
      rw [e4] at g3
      cases g3
    | some d =>
      obtain ⟨dir, o⟩ := d
      obtain ⟨-, hdir, -⟩ := g3
      refine ⟨s, hs, x, cfg, o, g1, g2, ?_⟩
      rw [g4 false, hdir, e3]
      rfl
  · have hcreate : Genome.create p.conf.genome ((evoWorld exLib evoDoc).layers p.disk) = .ok ⟨p.conf.genome, p.genome.numLayers⟩ := by
      unfold Genome.create
      rw [e8, e6]
      simp only
      rw [if_pos]
      · rfl
      · have : (match evoCase with | .ok p => p.conf.genome.granularity | .error _ => 1) = 0 := rfl
        rw [hp] at this
        simp only at this
        rw [this]
        exact Or.inl (by decide)
    cases hm : Genome.mergeConfig Search.someOps ⟨p.conf.genome, p.genome.numLayers⟩ (.flat (evoFirst p (fun _ => 0))) with
    | error e => rw [hm] at hfirst; cases hfirst
    | ok cfg =>
      refine ⟨{ best := (evoFirst p (fun _ => 0), none) }, ⟨.linear, cs!"bfloat16", cfg, some (cs!"st/final_model", evoOptions p.line)⟩, rfl, rfl, ?_, rfl⟩
      unfold evoEnd Search.chosen
      simp only [if_true]
      rw [hcreate]
      simp only
      rw [hm]
      simp only
      rw [e7, e4, e3]
      rfl

end Verif.Main
