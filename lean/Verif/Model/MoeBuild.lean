import Verif.Model.Moe
import Verif.Model.LoadTask

/-! # `mergekit-moe` as a whole (`/repo/mergekit/scripts/moe.py:20-84, 167-198`; `_generate_config` of the four layouts)

What a run leaves in the output directory: `config.json`, the tensors, the tokenizer and the copy of the input. -/

namespace Verif.Moe

open Verif.ModelRef (Str)
open Verif.Arch (WeightInfo)
open Verif.LoadTask (DType dtypeFromName)

/-! ## Configurations of models -/

/-- Values in a model's configuration, as far as they matter here.  [moe/mixtral.py:78-82, moe/deepseek.py:84-98] -/
inductive Val where
  | null
  | bool (b : Bool)
  | int (n : Int)
  | text (s : Str)
  | texts (l : List Str)
  | dtype (d : DType)
  | map (l : List (Str × Str))
deriving DecidableEq

/-- A configuration: `to_dict()`, the attributes.  [moe/mixtral.py:78, moe/deepseek.py:84] -/
abbrev Cfg : Type := Str → Option Val

/-- `cfg.key = v`, `res["key"] = v`.  [moe/mixtral.py:79-82, moe/deepseek.py:85-98] -/
def Cfg.set (c : Cfg) (k : Str) (v : Val) : Cfg := fun x => if x = k then some v else c x

/-- The configuration classes of the transformers library that are called.  [moe/mixtral.py:71, 78; moe/qwen.py:76; moe/qwen3.py:59] -/
inductive Cls where
  | mistral | mixtral | qwen2moe | qwen3moe
deriving DecidableEq

/-- The transformers library: `make cls d` is `cls(**d)` (which may fill in and rearrange attributes), `isMistral d` whether the configuration is
an instance of `MistralConfig`.  [moe/mixtral.py:70-78, moe/qwen.py:76, moe/qwen3.py:59] -/
structure Lib where
  make : Cls → Cfg → Cfg
  isMistral : Cfg → Bool

/-- How a whole run can fail.  [scripts/moe.py:30-34; moe/mixtral.py:67-68; moe/deepseek.py:78-81, 121; common.py:243] -/
inductive BuildErr where
  /-- `sys.exit(1)` -/
  | exit
  /-- `NotImplementedError` -/
  | notImplemented
  /-- `FileNotFoundError`: the directory of a file to be written does not exist -/
  | noDirectory
  /-- `AttributeError` or `KeyError` for an entry of a configuration -/
  | noEntry (k : Str)
  /-- "Unimplemented dtype" -/
  | badDtype
  /-- whatever reading and writing of the tensors raises -/
  | run (e : Err)
deriving DecidableEq

/-- `experts_per_token or d`  [moe/mixtral.py:81, moe/deepseek.py:89, moe/qwen.py:79, moe/qwen3.py:62] -/
def orDefault (n d : Int) : Int := if n = 0 then d else n

/-- `MixtralMoE._generate_config`, mixtral.py:60-89 (the warning about powers of two is left out).  `base_config.max_position_embeddings` is an
`AttributeError` if it is not there. -/
def generateMixtral (lib : Lib) (base : Cfg) (experts : Nat) (shared : Nat) (perToken : Int) : Except BuildErr Cfg :=
  if shared ≠ 0 then .error .notImplemented
  else
    let viaMistral : Except BuildErr Cfg :=
      if lib.isMistral base then .ok base
      else
        match base cs!"max_position_embeddings" with
        | none => .error (.noEntry cs!"max_position_embeddings")
        | some v => .ok (((lib.make .mistral base).set cs!"sliding_window" .null).set cs!"max_position_embeddings" v)
    match viaMistral with
    | .error e => .error e
    | .ok b =>
      .ok (((((lib.make .mixtral b).set cs!"architectures" (.texts [cs!"MixtralForCausalLM"])).set cs!"num_local_experts" (.int experts)).set
        cs!"num_experts_per_tok" (.int (orDefault perToken 2))).set cs!"sliding_window" .null)

/-- `DeepseekMoE._generate_config`, deepseek.py:71-99. -/
def generateDeepseek (base : Cfg) (experts : Nat) (shared : Nat) (perToken : Int) : Except BuildErr Cfg :=
  if 1 < shared then .error .notImplemented
  else
    let res := ((((((((base.set cs!"architectures" (.texts [cs!"DeepseekForCausalLM"])).set cs!"model_type" (.text cs!"deepseek")).set
      cs!"n_routed_experts" (.int experts)).set cs!"n_shared_experts" (if shared = 0 then .null else .int shared)).set
      cs!"num_experts_per_tok" (.int (orDefault perToken (if shared = 0 then 2 else 1)))).set cs!"first_k_dense_replace" (.int 0)).set
      cs!"moe_layer_freq" (.int 1)).set cs!"scoring_func" (.text cs!"softmax")).set cs!"norm_topk_prob" (.bool true)
    match res cs!"intermediate_size" with
    | none => .error (.noEntry cs!"intermediate_size")
    | some v =>
      .ok ((res.set cs!"moe_intermediate_size" v).set cs!"auto_map" (.map [
        (cs!"AutoConfig", cs!"deepseek-ai/deepseek-moe-16b-base--configuration_deepseek.DeepseekConfig"),
        (cs!"AutoModel", cs!"deepseek-ai/deepseek-moe-16b-base--modeling_deepseek.DeepseekModel"),
        (cs!"AutoModelForCausalLM", cs!"deepseek-ai/deepseek-moe-16b-base--modeling_deepseek.DeepseekForCausalLM")]))

/-- `QwenMoE._generate_config`, qwen.py:70-92 (the warning about powers of two is left out). -/
def generateQwen (lib : Lib) (base : Cfg) (experts : Nat) (perToken : Int) : Except BuildErr Cfg :=
  let out := ((((((lib.make .qwen2moe base).set cs!"architectures" (.texts [cs!"Qwen2MoeForCausalLM"])).set cs!"num_experts" (.int experts)).set
    cs!"num_experts_per_tok" (.int (orDefault perToken 2))).set cs!"decoder_sparse_step" (.int 1)).set cs!"norm_topk_prob" (.bool true)).set
    cs!"sliding_window" .null |>.set cs!"use_sliding_window" (.bool false)
  match out cs!"intermediate_size" with
  | none => .error (.noEntry cs!"intermediate_size")
  | some v => .ok ((out.set cs!"shared_expert_intermediate_size" v).set cs!"moe_intermediate_size" v)

/-- `Qwen3MoE._generate_config`, qwen3.py:53-72 (the warning about powers of two is left out). -/
def generateQwen3 (lib : Lib) (base : Cfg) (experts : Nat) (perToken : Int) : Except BuildErr Cfg :=
  let out := ((((lib.make .qwen3moe base).set cs!"architectures" (.texts [cs!"Qwen3MoeForCausalLM"])).set cs!"num_experts" (.int experts)).set
    cs!"num_experts_per_tok" (.int (orDefault perToken 2))).set cs!"decoder_sparse_step" (.int 1) |>.set cs!"norm_topk_prob" (.bool true)
  match out cs!"intermediate_size" with
  | none => .error (.noEntry cs!"intermediate_size")
  | some v => .ok (out.set cs!"moe_intermediate_size" v)

/-- `_generate_config` of the chosen layout, as `write_model` calls it: mixtral.py:111-116, deepseek.py:113-118, qwen.py:106-110, qwen3.py:86-90. -/
def generate {M K : Type} (lib : Lib) (base : Cfg) (c : Config M K) : OutArch → Except BuildErr Cfg
  | .mixtral => generateMixtral lib base c.experts.length c.sharedList.length c.expertsPerToken
  | .deepseek => generateDeepseek base c.experts.length c.sharedList.length c.expertsPerToken
  | .qwen => generateQwen lib base c.experts.length c.expertsPerToken
  | .qwen3 => generateQwen3 lib base c.experts.length c.expertsPerToken

/-- `dtype_from_name` with the errors of this file, common.py:228-243. -/
def namedDtype (s : Str) : Except BuildErr DType :=
  match dtypeFromName (String.ofList s) with
  | .ok d => .ok d
  | .error _ => .error .badDtype

/-- `select_dtype`, moe/common.py:46-57.  (`base_cfg.torch_dtype` is a type, a name, or nothing; a name that is empty counts as nothing.) -/
def selectDtype (dtype : Option Str) (base : Cfg) : Except BuildErr (Option DType) :=
  let fromBase : Except BuildErr (Option DType) :=
    match base cs!"torch_dtype" with
    | some (.dtype d) => .ok (some d)
    | some (.text s) => if s.isEmpty then .ok none else (namedDtype s).map some
    | _ => .ok none
  match dtype with
  | none => fromBase
  | some s => if s.isEmpty then fromBase else (namedDtype s).map some

/-- `out_cfg.torch_dtype = ...`: always in the Mixtral layout, mixtral.py:117, otherwise only if the type is known, deepseek.py:119-120,
qwen.py:111-112, qwen3.py:91-92 (in a `config.json` a type is written as its name). -/
def withDtype (a : OutArch) (d : Option DType) (c : Cfg) : Cfg :=
  match a, d with
  | .mixtral, none => c.set cs!"torch_dtype" .null
  | _, none => c
  | _, some d => c.set cs!"torch_dtype" (.dtype d)

/-! ## The run -/

/-- What is changed in the tokenizer, scripts/moe.py:39-42: side and token of the padding; tokens are numbers. -/
structure Tok where
  paddingSide : Str
  bos : Option Nat
  eos : Option Nat
  pad : Option Nat
  /-- everything else -/
  rest : Nat
deriving DecidableEq

/-- scripts/moe.py:39-42 -/
def prepareTok (t : Tok) : Tok :=
  let t := { t with paddingSide := cs!"left", pad := t.bos }
  if t.pad.isNone then { t with pad := t.eos } else t

/-- The surroundings of a run: configurations, loaders, tokenizers and numbers of layers of the models, the weights listed for them, the
computation of the routers (`stack` makes the tensor of a layer from its rows), the arithmetic for an output type, the transformers library.
[scripts/moe.py:20-84, moe/mixtral.py:94-135] -/
structure Env (M K V W : Type) where
  lib : Lib
  cfg : M → Cfg
  typeOf : M → Str
  layers : M → Nat
  disk : M → Loader V
  /-- `MISTRAL_INFO`, `QWEN2_INFO`, `QWEN3_INFO` `.all_weights(base_cfg)` and `arch_info_for_config(base_cfg).all_weights(base_cfg)` -/
  weights : OutArch → M → List WeightInfo
  tokenizer : M → Tok
  gates : Gates W
  stack : List W → V
  ops : Option DType → Ops V K
  mixtralTransforms : List (Verif.Convert.Transform V)
  qwen3Transforms : List (Verif.Convert.Transform V)

/-- `MergeOptions` used here, options.py:24-80, and the flag of scripts/moe.py:159-165; `dtype` is the one of the configuration. -/
structure Flags where
  copyTokenizer : Bool := true
  writeModelCard : Bool := true
  allowAllSame : Bool := false
  dtype : Option Str := none

/-- The output directory: whether it exists, and the files in it that a run writes (`tensors` once they are all written: what a failing run
leaves of them is not described).  [scripts/moe.py:70-82, 193-198] -/
structure Dir (V : Type) where
  there : Bool := false
  config : Option Cfg := none
  tensors : Option (List (Str × V)) := none
  tokenizer : Option Tok := none
  recipe : Option Str := none

/-- The tensors of the chosen layout: mixtral.py:120-188, deepseek.py:124-181, qwen.py:116-194, qwen3.py:95-164. -/
def writeTensors {M K V W : Type} [DecidableEq M] (env : Env M K V W) (c : Config M K) (d : Option DType) (rows : List (List W × List W)) :
    OutArch → Except Err (List (Str × V))
  | .mixtral =>
    writeMixtral (env.ops d) env.disk c (env.weights .mixtral c.base) env.mixtralTransforms (env.layers c.base) (rows.map (fun r => env.stack r.1))
  | .deepseek => writeDeepseek (env.ops d) env.disk c (env.weights .deepseek c.base) (rows.map (fun r => env.stack r.1))
  | .qwen =>
    writeQwen (env.ops d) env.disk c (env.weights .qwen c.base) (rows.map (fun r => env.stack r.1)) (rows.map (fun r => env.stack r.2))
  | .qwen3 =>
    writeQwen3 (env.ops d) env.disk c (env.weights .qwen3 c.base) env.qwen3Transforms (env.layers c.base) (rows.map (fun r => env.stack r.1))

/-- `write_model`: mixtral.py:94-188, deepseek.py:101-181, qwen.py:94-194, qwen3.py:74-164.  The configuration is saved before any tensor is read;
`save_pretrained` makes the directory, `open(..., "w")` does not (deepseek.py:121). -/
def writeModel {M K V W : Type} [DecidableEq M] (env : Env M K V W) (c : Config M K) (flags : Flags) (a : OutArch) (rows : List (List W × List W))
    (dir : Dir V) : Dir V × Option BuildErr :=
  if a = .mixtral ∧ rows.length ≠ env.layers c.base then (dir, some (.run .assertion))
  else
    match selectDtype flags.dtype (env.cfg c.base) with
    | .error e => (dir, some e)
    | .ok d =>
      match generate env.lib (env.cfg c.base) c a with
      | .error e => (dir, some e)
      | .ok cfg =>
        if a = .deepseek ∧ !dir.there then (dir, some .noDirectory)
        else
          let dir := { dir with there := true, config := some (withDtype a d cfg) }
          match writeTensors env c d rows a with
          | .error e => (dir, some (.run e))
          | .ok ts => ({ dir with tensors := some ts }, none)

/-- `build`, scripts/moe.py:20-84. -/
def build {M K V W : Type} [DecidableEq M] (env : Env M K V W) (c : Config M K) (flags : Flags) (dir : Dir V) : Dir V × Option BuildErr :=
  if isBad c flags.allowAllSame then (dir, some .exit)
  else
    match selectArch c env.typeOf with
    | none => (dir, some .exit)
    | some a =>
      match routersOf env.gates c (env.layers c.base) with
      | .error e => (dir, some (.run e))
      | .ok rows =>
        match writeModel env c flags a rows dir with
        | (dir, some e) => (dir, some e)
        | (dir, none) => (if flags.copyTokenizer then { dir with tokenizer := some (prepareTok (env.tokenizer c.base)) } else dir, none)

/-- `main`, scripts/moe.py:167-198: `source` is the text of the configuration file, `c` what it says. -/
def main {M K V W : Type} [DecidableEq M] (env : Env M K V W) (source : Str) (c : Config M K) (flags : Flags) (dir : Dir V) :
    Dir V × Option BuildErr :=
  match build env c flags dir with
  | (dir, some e) => (dir, some e)
  | (dir, none) => (if flags.writeModelCard then { dir with recipe := some source } else dir, none)

end Verif.Moe
