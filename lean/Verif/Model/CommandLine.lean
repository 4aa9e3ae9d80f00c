import Verif.Model.Chars
import Verif.Model.ModelRef
import Verif.Model.Options

/-! # The command lines (`/repo/mergekit/options.py:153-206` and the `main` functions in `/repo/mergekit/scripts`)

Which options each command has, with the ones `add_merge_options` derives from the fields of `MergeOptions`, and how `click` (a library, not part of the
repository) reads the words of a command line.  Types other than those of the fields of `MergeOptions` (floats, choices, paths) are not modelled: the values
of the commands' own options are kept as words. -/

namespace Verif.CommandLine

open Verif.ModelRef (Str)

/-- The kinds of options used: a flag, one value, several values (`multiple=True`), a counted flag (`count=True`).  [options.py:170-204] -/
inductive Kind where
  | flag | value | many | count
deriving DecidableEq

/-- `click.option(...)`: the name of the parameter, and how the option is written (for a flag that can be switched off, also how that is written).
[options.py:170-204, scripts/*.py] -/
structure Opt where
  name : Str
  kind : Kind
  on : List Str
  off : List Str := []
  required : Bool := false
deriving DecidableEq

/-- The types of the fields of `MergeOptions`; `Optional` is dropped (options.py:171-177), and the size of a shard has a type of its own (179-180). -/
inductive FieldType where
  | bool | str | int | size
deriving DecidableEq

/-- `MergeOptions.model_fields` with their types, options.py:19-42. -/
def fields : List (Str × FieldType) :=
  [(cs!"allow_crimes", .bool), (cs!"transformers_cache", .str), (cs!"lora_merge_cache", .str), (cs!"lora_merge_dtype", .str), (cs!"cuda", .bool),
   (cs!"device", .str), (cs!"low_cpu_memory", .bool), (cs!"out_shard_size", .size), (cs!"copy_tokenizer", .bool), (cs!"clone_tensors", .bool),
   (cs!"trust_remote_code", .bool), (cs!"random_seed", .int), (cs!"lazy_unpickle", .bool), (cs!"write_model_card", .bool),
   (cs!"safe_serialization", .bool), (cs!"verbosity", .int), (cs!"quiet", .bool), (cs!"read_to_gpu", .bool), (cs!"multi_gpu", .bool),
   (cs!"num_threads", .int), (cs!"gpu_rich", .bool), (cs!"async_write", .bool), (cs!"write_threads", .int)]

/-- `field_name.replace("_", "-")`, options.py:182. -/
def dashed (s : Str) : Str := s.map (fun c => if c = '_' then '-' else c)

/-- The option for a field, options.py:182-204. -/
def fieldOpt (f : Str × FieldType) : Opt :=
  if f.1 = cs!"verbosity" then { name := f.1, kind := .count, on := [cs!"-v"] }
  else if f.1 = cs!"num_threads" then { name := f.1, kind := .value, on := [cs!"--num-threads", cs!"-j"] }
  else if f.1 = cs!"gpu_rich" then { name := f.1, kind := .flag, on := [cs!"--gpu-rich"] }
  else if f.2 = .bool then { name := f.1, kind := .flag, on := [cs!"--" ++ dashed f.1], off := [cs!"--no-" ++ dashed f.1] }
  else { name := f.1, kind := .value, on := [cs!"--" ++ dashed f.1] }

/-- A command: its arguments in order, its own options, whether `add_merge_options` adds the others, and the parameters of its function.  [scripts/*.py] -/
structure Command where
  args : List Str
  own : List Opt
  merge : Bool
  params : List Str

/-- All options of a command: `add_merge_options` (options.py:168-204), the command's own, and `--help`, which `click` adds. -/
def Command.opts (c : Command) : List Opt :=
  c.own ++ (if c.merge then fields.map fieldOpt else []) ++ [{ name := cs!"help", kind := .flag, on := [cs!"--help"] }]

/-! ## The commands -/

/-- A flag `--x` with `--no-x`.  [scripts/*.py] -/
def toggle (name : Str) : Opt := { name, kind := .flag, on := [cs!"--" ++ dashed name], off := [cs!"--no-" ++ dashed name] }

/-- A flag `--x`.  [scripts/*.py] -/
def switch (name : Str) : Opt := { name, kind := .flag, on := [cs!"--" ++ dashed name] }

/-- An option `--x` with a value, perhaps with other forms.  [scripts/*.py] -/
def valued (name : Str) (more : List Str := []) : Opt := { name, kind := .value, on := (cs!"--" ++ dashed name) :: more }

/-- `mergekit-yaml`, scripts/run_yaml.py:13-21. -/
def yaml : Command where
  args := [cs!"config_file", cs!"out_path"]
  own := []
  merge := true
  params := [cs!"merge_options", cs!"config_file", cs!"out_path"]

/-- `mergekit-legacy`, scripts/legacy.py:14-81. -/
def legacy : Command where
  args := [cs!"out_path"]
  own := [{ name := cs!"merge", kind := .many, on := [cs!"--merge"] }, { name := cs!"density", kind := .many, on := [cs!"--density"] },
    { name := cs!"weight", kind := .many, on := [cs!"--weight"] }, valued cs!"method", valued cs!"base_model", toggle cs!"normalize", toggle cs!"int8_mask",
    toggle cs!"bf16", toggle cs!"naive_count", toggle cs!"print_yaml"]
  merge := true
  params := [cs!"out_path", cs!"merge", cs!"density", cs!"weight", cs!"method", cs!"base_model", cs!"normalize", cs!"int8_mask", cs!"bf16", cs!"naive_count",
    cs!"print_yaml", cs!"merge_options"]

/-- `mergekit-layershuffle`, scripts/layershuffle.py:21-63. -/
def layershuffle : Command where
  args := [cs!"out_path"]
  own := [{ name := cs!"model", kind := .many, on := [cs!"--model", cs!"-m"] }, { name := cs!"weight", kind := .many, on := [cs!"--weight", cs!"-w"] },
    toggle cs!"print_yaml", valued cs!"write_yaml", switch cs!"dry_run", toggle cs!"fp16", toggle cs!"full_random"]
  merge := true
  params := [cs!"out_path", cs!"model", cs!"weight", cs!"print_yaml", cs!"write_yaml", cs!"dry_run", cs!"fp16", cs!"full_random", cs!"merge_options"]

/-- `bakllama`, scripts/bakllama.py:33-47. -/
def bakllama : Command where
  args := [cs!"config_path", cs!"out_path"]
  own := [toggle cs!"clone_tensors", toggle cs!"fp16"]
  merge := false
  params := [cs!"config_path", cs!"out_path", cs!"clone_tensors", cs!"fp16"]

/-- `mergekit-moe`, scripts/moe.py:142-174. -/
def moe : Command where
  args := [cs!"config_path", cs!"out_path"]
  own := [switch cs!"load_in_4bit", switch cs!"load_in_8bit", switch cs!"i_understand_this_is_not_useful_without_training"]
  merge := true
  params := [cs!"config_path", cs!"out_path", cs!"load_in_4bit", cs!"load_in_8bit", cs!"i_understand_this_is_not_useful_without_training", cs!"merge_options"]

/-- `mergekit-tokensurgeon`, scripts/tokensurgeon.py:533-633. -/
def tokensurgeon : Command where
  args := [cs!"model", cs!"donor", cs!"out_path"]
  own := [valued cs!"k" [cs!"-k"],
    { name := cs!"cosine_similarity", kind := .flag, on := [cs!"--cosine-similarity", cs!"-c"], off := [cs!"--no-cosine-similarity", cs!"-nc"] },
    valued cs!"approximation_method" [cs!"-a"], valued cs!"weight_scheme" [cs!"-w"], valued cs!"subword_method" [cs!"-s"], valued cs!"batch_size",
    valued cs!"prefix_match" [cs!"-pm"], valued cs!"byte_match" [cs!"-bm"], toggle cs!"magikarp", valued cs!"new_vocab_noise" [cs!"-nvn"],
    valued cs!"new_vocab_scale" [cs!"-nvs"]]
  merge := true
  params := [cs!"model", cs!"donor", cs!"out_path", cs!"k", cs!"cosine_similarity", cs!"approximation_method", cs!"weight_scheme", cs!"subword_method",
    cs!"batch_size", cs!"prefix_match", cs!"byte_match", cs!"magikarp", cs!"new_vocab_noise", cs!"new_vocab_scale", cs!"merge_options"]

/-- `mergekit-extract-lora`, scripts/extract_lora.py:30-115. -/
def extractLora : Command where
  args := []
  own := [{ valued cs!"model" with required := true }, { valued cs!"base_model" with required := true }, { valued cs!"out_path" with required := true },
    valued cs!"max_rank", toggle cs!"distribute_scale", toggle cs!"embed_lora", { name := cs!"modules_to_save", kind := .many, on := [cs!"--save-module"] },
    { name := cs!"exclude_regexes", kind := .many, on := [cs!"--exclude-regex", cs!"-e"] },
    { name := cs!"include_regexes", kind := .many, on := [cs!"--include-regex", cs!"-i"] }, valued cs!"sv_epsilon", switch cs!"skip_undecomposable"]
  merge := true
  params := [cs!"base_model", cs!"model", cs!"out_path", cs!"max_rank", cs!"distribute_scale", cs!"embed_lora", cs!"modules_to_save", cs!"exclude_regexes",
    cs!"include_regexes", cs!"sv_epsilon", cs!"skip_undecomposable", cs!"merge_options"]

/-- `mergekit-evolve`, scripts/evolve.py:41-150. -/
def evolve : Command where
  args := [cs!"genome_config_path"]
  own := [valued cs!"max_fevals", toggle cs!"vllm", valued cs!"strategy" [cs!"-s"], toggle cs!"in_memory", { valued cs!"storage_path" with required := true },
    valued cs!"num_gpus", toggle cs!"merge_cuda", toggle cs!"trust_remote_code", toggle cs!"allow_crimes", valued cs!"random_seed", valued cs!"batch_size",
    valued cs!"sigma0", { name := cs!"use_wandb", kind := .flag, on := [cs!"--wandb"], off := [cs!"--no-wandb"] }, valued cs!"wandb_project",
    valued cs!"wandb_entity", { name := cs!"task_search_path", kind := .many, on := [cs!"--task-search-path"] },
    { name := cs!"allow_benchmark_tasks", kind := .flag, on := [cs!"--i-understand-the-depths-of-the-evils-i-am-unleashing"] }, toggle cs!"save_final_model",
    toggle cs!"reshard", valued cs!"timeout", switch cs!"load_in_8bit", switch cs!"load_in_4bit", valued cs!"force_population_size"]
  merge := false
  params := [cs!"genome_config_path", cs!"max_fevals", cs!"vllm", cs!"strategy", cs!"in_memory", cs!"storage_path", cs!"num_gpus", cs!"merge_cuda",
    cs!"trust_remote_code", cs!"allow_crimes", cs!"random_seed", cs!"batch_size", cs!"sigma0", cs!"use_wandb", cs!"wandb_project", cs!"wandb_entity",
    cs!"task_search_path", cs!"allow_benchmark_tasks", cs!"save_final_model", cs!"reshard", cs!"timeout", cs!"load_in_8bit", cs!"load_in_4bit",
    cs!"force_population_size"]

/-- `mergekit-pytorch`, scripts/merge_raw_pytorch.py:210-236. -/
def pytorch : Command where
  args := [cs!"config_path", cs!"out_path"]
  own := [{ name := cs!"tensor_intersection", kind := .flag, on := [cs!"--tensor-intersection", cs!"-i"] },
    { name := cs!"tensor_union", kind := .flag, on := [cs!"--tensor-union", cs!"-u"] }]
  merge := true
  params := [cs!"config_path", cs!"out_path", cs!"tensor_union", cs!"tensor_intersection", cs!"merge_options"]

/-- `mergekit-multi`, scripts/multimerge.py:63-90. -/
def multi : Command where
  args := [cs!"config_file"]
  own := [valued cs!"out_path", { valued cs!"intermediate_dir" [cs!"-I"] with required := true }, toggle cs!"lazy"]
  merge := true
  params := [cs!"config_file", cs!"intermediate_dir", cs!"out_path", cs!"lazy", cs!"merge_options"]

/-- The commands of `pyproject.toml` (`[project.scripts]`).  [scripts/*.py] -/
def commands : List Command := [yaml, legacy, layershuffle, bakllama, moe, tokensurgeon, extractLora, evolve, pytorch, multi]

/-! ## Reading the words -/

/-- `click`'s errors: an option that does not exist, a value missing or not allowed, an option or argument missing, arguments too many, a value of the wrong
type; and `--help`, which ends the command.  [options.py:164-206: what the decorated function may meet] -/
inductive Err where
  | unknown | noValue | valueGiven | missingOption | missingArgument | extraArgument | badValue | help
deriving DecidableEq

/-- What an option was given.  [`click`, for the options declared in options.py:182-204] -/
inductive Val where
  | flag (b : Bool)
  | word (s : Str)
  | words (l : List Str)
  | count (n : Nat)
deriving DecidableEq

/-- The state of `click`'s parser: the values so far, the arguments so far, an option that needs the next word, and whether `--` was read.  [`click`, for the options declared in options.py:182-204] -/
structure State where
  vals : Str → Option Val := fun _ => none
  pos : List Str := []
  waiting : Option Opt := none
  rest : Bool := false

/-- `if option.takes_value`.  [`click`, for the options declared in options.py:182-204] -/
def Opt.takes (o : Opt) : Bool := o.kind = .value || o.kind = .many

/-- `dict[name] = value`.  [`click`, for the options declared in options.py:182-204] -/
def State.set (s : State) (name : Str) (v : Val) : State := { s with vals := fun n => if n = name then some v else s.vals n }

/-- `Option.process` for an option with a value (`store`, `append`).  [`click`, for the options declared in options.py:182-204] -/
def State.store (s : State) (o : Opt) (v : Str) : State :=
  match o.kind with
  | .many =>
    match s.vals o.name with
    | some (.words l) => s.set o.name (.words (l ++ [v]))
    | _ => s.set o.name (.words [v])
  | _ => s.set o.name (.word v)

/-- `Option.process` for one without (`store_const`, `count`); `b` is false for the form that switches off.  [`click`, for the options declared in options.py:182-204] -/
def State.mark (s : State) (o : Opt) (b : Bool) : State :=
  match o.kind with
  | .count =>
    match s.vals o.name with
    | some (.count n) => s.set o.name (.count (n + 1))
    | _ => s.set o.name (.count 1)
  | _ => s.set o.name (.flag b)

/-- A dash and one more character is a short form, every other one is a long one (`_Option.__init__`).  [`click`, for the options declared in options.py:182-204] -/
def isShort (f : Str) : Bool := f.length = 2 && !(f = cs!"--")

/-- Which option has this form, and is it the one that switches on (`_long_opt`, `_short_opt`).  [`click`, for the options declared in options.py:182-204] -/
def findForm (os : List Opt) (f : Str) : Option (Opt × Bool) :=
  match os.find? (fun o => decide (f ∈ o.on) || decide (f ∈ o.off)) with
  | none => none
  | some o => some (o, decide (f ∈ o.on))

/-- `arg.split("=", 1)`.  [`click`, for the options declared in options.py:182-204] -/
def splitEq : Str → Str × Option Str
  | [] => ([], none)
  | c :: s => if c = '=' then ([], some s) else (c :: (splitEq s).1, (splitEq s).2)

/-- `_match_short_opt`: the characters after the dash.  [`click`, for the options declared in options.py:182-204] -/
def shorts (os : List Opt) (s : State) : Str → Except Err State
  | [] => .ok s
  | c :: cs =>
    match findForm os ['-', c] with
    | none => .error .unknown
    | some (o, b) =>
      if o.takes then
        match cs with
        | [] => .ok { s with waiting := some o }
        | _ => .ok (s.store o cs)
      else shorts os (s.mark o b) cs

/-- `_process_opts`: the form is looked up among the long ones, then, after a single dash, the characters are.  [`click`, for the options declared in options.py:182-204] -/
def option (os : List Opt) (s : State) (a : Str) : Except Err State :=
  match (if isShort (splitEq a).1 then none else findForm os (splitEq a).1) with
  | some (o, b) =>
    if o.takes then
      match (splitEq a).2 with
      | none => .ok { s with waiting := some o }
      | some v => .ok (s.store o v)
    else
      match (splitEq a).2 with
      | none => .ok (s.mark o b)
      | some _ => .error .valueGiven
  | none => if a.take 2 = cs!"--" then .error .unknown else shorts os s a.tail

/-- One word, `_process_args_for_options`.  [`click`, for the options declared in options.py:182-204] -/
def word (os : List Opt) (s : State) (a : Str) : Except Err State :=
  match s.waiting with
  | some o => .ok ({ s with waiting := none }.store o a)
  | none =>
    if s.rest then .ok { s with pos := s.pos ++ [a] }
    else if a = cs!"--" then .ok { s with rest := true }
    else if a.head? = some '-' ∧ 1 < a.length then option os s a
    else .ok { s with pos := s.pos ++ [a] }

/-- All words.  [`click`, for the options declared in options.py:182-204] -/
def words (os : List Opt) (s : State) : List Str → Except Err State
  | [] => if s.waiting = none then .ok s else .error .noValue
  | a :: rest =>
    match word os s a with
    | .error e => .error e
    | .ok s => words os s rest

/-! ## Calling the function -/

/-- A value of a field of `MergeOptions`.  [options.py:19-42] -/
inductive FieldVal where
  | bool (b : Bool)
  | str (s : Str)
  | int (i : Int)
deriving DecidableEq

/-- The defaults of the fields (`default=info.default`, options.py:24-42, 201); `None` is `none`. -/
def default (name : Str) : Option FieldVal :=
  if name = cs!"out_shard_size" then some (.int 5000000000)
  else if name ∈ [cs!"copy_tokenizer", cs!"write_model_card", cs!"safe_serialization"] then some (.bool true)
  else if name = cs!"verbosity" then some (.int 0)
  else if name = cs!"write_threads" then some (.int 1)
  else if name ∈ [cs!"transformers_cache", cs!"lora_merge_cache", cs!"lora_merge_dtype", cs!"device", cs!"random_seed", cs!"num_threads"] then none
  else some (.bool false)

/-- The type conversion of `click` for a field: `int`, `parse_kmb` (options.py:144-150), or the word itself. -/
def convert (f : Str × FieldType) (v : Option Val) : Except Err (Option FieldVal) :=
  match v with
  | none => .ok (default f.1)
  | some (.flag b) => .ok (some (.bool b))
  | some (.count n) => .ok (some (.int n))
  | some (.words _) => .error .badValue
  | some (.word s) =>
    match f.2 with
    | .str => .ok (some (.str s))
    | .bool => .error .badValue
    | .int => match ModelRef.pyInt s with
      | none => .error .badValue
      | some i => .ok (some (.int i))
    | .size => match ModelRef.parseKmb s with
      | none => .error .badValue
      | some i => .ok (some (.int i))

/-- The keyword arguments for `MergeOptions`, options.py:154-161. -/
def mergeArgs (vals : Str → Option Val) : List (Str × FieldType) → Except Err (List (Str × Option FieldVal))
  | [] => .ok []
  | f :: fs =>
    match convert f (vals f.1) with
    | .error e => .error e
    | .ok v => match mergeArgs vals fs with
      | .error e => .error e
      | .ok r => .ok ((f.1, v) :: r)

/-- What the function of a command is called with: its arguments by name, what was given for its own options (if anything), and the keyword arguments of
`MergeOptions`.  [options.py:154-167] -/
structure Call where
  args : List (Str × Str)
  own : List (Str × Option Val)
  merge : List (Str × Option FieldVal)

/-- A command called from the shell: `click`, then `wrapper`.  [options.py:154-167] -/
def call (c : Command) (line : List Str) : Except Err Call :=
  match words c.opts {} line with
  | .error e => .error e
  | .ok s =>
    if s.vals cs!"help" = some (.flag true) then .error .help
    else if s.pos.length < c.args.length then .error .missingArgument
    else if c.args.length < s.pos.length then .error .extraArgument
    else if c.own.any (fun o => o.required && (s.vals o.name).isNone) then .error .missingOption
    else
      match (if c.merge then mergeArgs s.vals fields else .ok []) with
      | .error e => .error e
      | .ok m => .ok { args := c.args.zip s.pos, own := c.own.map (fun o => (o.name, s.vals o.name)), merge := m }

/-- A field that holds a truth value.  [options.py:154-161] -/
def boolOf : Option (Option FieldVal) → Option Bool
  | some (some (.bool b)) => some b
  | _ => none

/-- A field that holds a word.  [options.py:154-161] -/
def strOf : Option (Option FieldVal) → Option Str
  | some (some (.str s)) => some s
  | _ => none

/-- A field that holds a number.  [options.py:154-161] -/
def intOf : Option (Option FieldVal) → Option Int
  | some (some (.int i)) => some i
  | _ => none

/-- `MergeOptions(**arg_dict)`, options.py:162: what the validators of `MergeOptions` see; the fields they do not look at are kept as given. -/
def toGiven (m : List (Str × Option FieldVal)) : Options.Given (List (Str × Option FieldVal)) where
  rest := m
  gpuRich := boolOf (m.lookup cs!"gpu_rich")
  cuda := boolOf (m.lookup cs!"cuda")
  lowCpuMemory := boolOf (m.lookup cs!"low_cpu_memory")
  readToGpu := boolOf (m.lookup cs!"read_to_gpu")
  multiGpu := boolOf (m.lookup cs!"multi_gpu")
  device := strOf (m.lookup cs!"device")
  asyncWrite := boolOf (m.lookup cs!"async_write")
  writeThreads := intOf (m.lookup cs!"write_threads")

end Verif.CommandLine
