import Verif.Model.Arch
import Verif.Model.Chars
import Verif.Model.Convert

/-! # Mixture-of-experts merges (`/repo/mergekit/moe`, `/repo/mergekit/scripts/moe.py`)

Models are values of an abstract type `M`, tensors of an abstract type `V`, numbers of the configuration of an abstract type `K`. -/

namespace Verif.Moe

open Verif.ModelRef (Str)
open Verif.Arch (WeightInfo hasMlp)

/-- How a run can fail.  [moe/common.py:71-124, moe/router.py:71-151] -/
inductive Err where
  /-- `KeyError(name)` -/
  | key (name : Str)
  /-- an attribute of `None` is used -/
  | attribute
  /-- `TypeError` -/
  | type
  /-- an `assert` -/
  | assertion
  /-- `IndexError` -/
  | index
  /-- `RuntimeError` -/
  | runtime
deriving DecidableEq

/-! ## Configuration -/

/-- `Expert`, config.py:12-22. -/
structure Expert (M K : Type) where
  source : M
  positive : Option (List Str) := none
  negative : Option (List Str) := none
  noiseScale : Option K := none
  residualScale : Option K := none

/-- `MoEMergeConfig`, config.py:25-42, without the data type (part of `Ops.cast`). -/
structure Config (M K : Type) where
  base : M
  experts : List (Expert M K)
  gateMode : Str := cs!"hidden"
  expertsPerToken : Int := 2
  shared : Option (List (Expert M K)) := none
  architecture : Option Str := none

/-- `if prompts:`  [moe/config.py:57-60, moe/router.py:143] -/
def given (p : Option (List Str)) : Bool := !(p.getD []).isEmpty

/-- `prompt_tup`, config.py:62-63, for an expert with positive prompts. -/
def promptTup {M K : Type} (e : Expert M K) : List Str × List Str := (e.positive.getD [], e.negative.getD [])

/-- `is_bad_config`, config.py:45-86 (the final `None` counts as false). `config.experts[0]` exists at that point, because the number of experts
is at least `experts_per_token`, which is at least 1; the model returns `true` where there is none. -/
def isBad {M K : Type} [DecidableEq M] (c : Config M K) (allowAllSame : Bool) : Bool :=
  if c.expertsPerToken < 1 then true
  else if (c.experts.length : Int) < c.expertsPerToken then true
  else if c.gateMode = cs!"random" then false
  else if c.experts.any (fun e => !given e.positive) then true
  else
    match c.experts with
    | [] => true
    | first :: rest =>
      if rest.all (fun e => decide (promptTup e = promptTup first)) then true
      else if !allowAllSame && rest.all (fun e => decide (e.source = first.source)) then true
      else false

/-! ## Choice of the output architecture -/

/-- The output architectures, moe/__init__.py:7-21, in their order (both optional ones are there with a recent transformers library). -/
inductive OutArch where
  | mixtral
  | deepseek
  | qwen
  | qwen3
deriving DecidableEq

/-- `ALL_OUTPUT_ARCHITECTURES`, moe/__init__.py:7-21. -/
def allArchs : List OutArch := [.mixtral, .deepseek, .qwen, .qwen3]

/-- `name()`, mixtral.py:28, deepseek.py:22, qwen.py:26, qwen3.py:28. -/
def OutArch.name : OutArch → Str
  | .mixtral => cs!"Mixtral"
  | .deepseek => cs!"DeepSeek MoE"
  | .qwen => cs!"Qwen MoE"
  | .qwen3 => cs!"Qwen3 MoE"

/-- `config.shared_experts or []`  [moe/deepseek.py:116, moe/mixtral.py:114] -/
def Config.sharedList {M K : Type} (c : Config M K) : List (Expert M K) := c.shared.getD []

/-- The model types looked at for base and experts.  [moe/mixtral.py:30-58] -/
def Config.typesPlain {M K : Type} (c : Config M K) (typeOf : M → Str) : List Str := (c.base :: c.experts.map (·.source)).map typeOf

/-- The same with shared experts.  [moe/qwen.py:28-68] -/
def Config.typesAll {M K : Type} (c : Config M K) (typeOf : M → Str) : List Str :=
  (c.base :: c.experts.map (·.source) ++ c.sharedList.map (·.source)).map typeOf

/-- `len(set(types)) == 1 and types[0] in allowed` for the non-empty list of types.  [moe/mixtral.py:30-58, moe/deepseek.py:24-69] -/
def oneOf (allowed types : List Str) : Bool :=
  match types with
  | [] => false
  | t :: ts => ts.all (fun u => decide (u = t)) && decide (t ∈ allowed)

/-- `supports_config`: mixtral.py:30-58, deepseek.py:24-66, qwen.py:28-67, qwen3.py:30-52; `typeOf` is the model type in a model's
configuration. -/
def OutArch.supports {M K : Type} (a : OutArch) (c : Config M K) (typeOf : M → Str) : Bool :=
  match a with
  | .mixtral =>
    if !c.sharedList.isEmpty then false else oneOf [cs!"llama", cs!"mistral"] (c.typesPlain typeOf)
  | .deepseek =>
    match c.sharedList with
    | [] => oneOf [cs!"llama", cs!"mistral"] (c.typesAll typeOf)
    | [s] =>
      if given s.positive || given s.negative then false else oneOf [cs!"llama", cs!"mistral"] (c.typesAll typeOf)
    | _ :: _ :: _ => false
  | .qwen =>
    match c.sharedList with
    | [s] =>
      if c.gateMode ≠ cs!"random" && !given s.positive then false else oneOf [cs!"llama", cs!"mistral", cs!"qwen2"] (c.typesAll typeOf)
    | _ => false
  | .qwen3 =>
    if !c.sharedList.isEmpty then false else (c.typesAll typeOf).all (fun t => decide (t = cs!"qwen3"))

/-- `str.lower`, for letters of the latin alphabet.  [scripts/moe.py:87-139] -/
def lower (s : Str) : Str := s.map Char.toLower

/-- `candidates_in`, scripts/moe.py:92-98. -/
def candidatesIn {M K : Type} (c : Config M K) : List OutArch :=
  match c.architecture with
  | some a => if a.isEmpty then allArchs else allArchs.filter (fun o => (lower a).isPrefixOf (lower o.name))
  | none => allArchs

/-- Mixtral if it is there, else the first one, scripts/moe.py:126-139. -/
def preferred (candidates : List OutArch) : Option OutArch :=
  match candidates.find? (fun o => decide (o = .mixtral)) with
  | some o => some o
  | none => candidates.head?

/-- `select_output_arch`, scripts/moe.py:87-139; `none` is `sys.exit(1)`. -/
def selectArch {M K : Type} (c : Config M K) (typeOf : M → Str) : Option OutArch :=
  preferred ((candidatesIn c).filter (fun o => o.supports c typeOf))

/-! ## Reading and writing tensors -/

/-- A loader: the tensors of a checkpoint.  [io/lazy_tensor_loader.py:106-148] -/
abbrev Loader (V : Type) : Type := Str → Option V

/-- `get_tensor` with aliases, io/lazy_tensor_loader.py:118-130: the stored tensor of that name or of the first alias that is stored. -/
def get {V : Type} (l : Loader V) (name : Str) (aliases : List Str) : Option V := (name :: aliases).findSome? l

/-- `loaders` of `initialize_io`, common.py:20-32: loaders for the base model and the experts only. -/
def loaderFor {M K V : Type} [DecidableEq M] (disk : M → Loader V) (c : Config M K) (m : M) : Option (Loader V) :=
  if m = c.base ∨ m ∈ c.experts.map (·.source) then some (disk m) else none

/-- What is done to tensors: `noise name s t` is `t + randn * s` with the random numbers drawn when the tensor is written as `name`, `scale` a
product with a number, `cast` the conversion to the output type (identity if there is none), `zeros` the bias made for a name
(qwen.py:153-168). -/
structure Ops (V K : Type) where
  noise : Str → K → V → V
  scale : K → V → V
  cast : V → V
  zeros : Str → V

/-- `noise_and_scale`, common.py:60-68. -/
def noiseAndScale {M K V : Type} (ops : Ops V K) (out : Str) (t : V) (e : Expert M K) (residual : Bool) : V :=
  let t := match e.noiseScale with
    | some s => ops.noise out s t
    | none => t
  match residual, e.residualScale with
  | true, some s => ops.scale s t
  | _, _ => t

/-- The alternative names, common.py:82-84.  `aliases` is a tuple (or `None`): adding the empty list to a non-empty tuple is a `TypeError`. -/
def copyAliases (w : WeightInfo) : Except Err (List Str) :=
  match w.aliases.getD [], w.optional, w.tiedNames.getD [] with
  | as, true, _ => .ok as
  | [], false, ts => .ok ts
  | _ :: _, false, [] => .error .type
  | a :: as, false, ts => .ok (a :: as ++ ts)

/-- `copy_tensor_out`, common.py:71-104: the tensor saved, `none` if an optional one is missing. -/
def copyOut {M K V : Type} (ops : Ops V K) (w : WeightInfo) (loader : Option (Loader V)) (expert : Option (Expert M K)) (residual : Bool)
    (out : Str) : Except Err (Option (Str × V)) :=
  match copyAliases w with
  | .error e => .error e
  | .ok aliases =>
    match loader with
    | none => .error .attribute
    | some l =>
      match get l w.name aliases with
      | none => if w.optional then .ok none else .error (.key out)
      | some t =>
        match expert with
        | some e => .ok (some (out, ops.cast (noiseAndScale ops out t e residual)))
        | none => .ok (some (out, ops.cast t))

/-- One step after the other, stopping at the first error.  [moe/deepseek.py:128-179] -/
def each {α β : Type} (f : α → Except Err (List β)) : List α → Except Err (List β)
  | [] => .ok []
  | a :: as =>
    match f a with
    | .error e => .error e
    | .ok x =>
      match each f as with
      | .error e => .error e
      | .ok y => .ok (x ++ y)

/-- What a copy saves as a list.  [moe/common.py:92-104] -/
def asList {β : Type} (r : Except Err (Option β)) : Except Err (List β) := r.map Option.toList

/-- `str.replace`: `skip` characters of an occurrence are still to be left out.  [moe/deepseek.py:135-137] -/
def replaceFrom (old new : Str) (skip : Nat) : Str → Str
  | [] => []
  | c :: s =>
    match skip with
    | k + 1 => replaceFrom old new k s
    | 0 => if old.isPrefixOf (c :: s) then new ++ replaceFrom old new (old.length - 1) s else c :: replaceFrom old new 0 s

/-- `name.replace(old, new)` for a non-empty `old`.  [moe/deepseek.py:135-137] -/
def replace (old new name : Str) : Str := replaceFrom old new 0 name

/-- `"down_proj" in name`  [moe/deepseek.py:144] -/
def hasDown (name : Str) : Bool := name.tails.any (fun t => cs!"down_proj".isPrefixOf t)

/-- `f".mlp.experts.{expert_idx}."` in place of `".mlp."`, deepseek.py:135-137, qwen.py:126-128. -/
def expertName (name : Str) (e : Nat) : Str := replace cs!".mlp." (cs!".mlp.experts." ++ Nat.toDigits 10 e ++ cs!".") name

/-- The name of a shared expert's tensor: deepseek.py:157-159, qwen.py:147. -/
def sharedName (word name : Str) : Str := replace cs!".mlp." (cs!".mlp." ++ word ++ cs!".") name

/-- `f"model.layers.{layer_idx}.mlp.<what>"`  [moe/deepseek.py:176] -/
def layerName (layer : Nat) (what : Str) : Str := cs!"model.layers." ++ Nat.toDigits 10 layer ++ cs!".mlp." ++ what

/-- The copies of one weight for all experts, numbered from `i`: deepseek.py:134-148, qwen.py:125-139. -/
def copyExperts {M K V : Type} [DecidableEq M] (ops : Ops V K) (disk : M → Loader V) (c : Config M K) (w : WeightInfo) :
    Except Err (List (Str × V)) :=
  each (fun p : Expert M K × Nat => asList (copyOut ops w (loaderFor disk c p.1.source) (some p.1) (hasDown w.name) (expertName w.name p.2)))
    c.experts.zipIdx

/-- The router weights, deepseek.py:172-179, mixtral.py:179-186, qwen3.py:155-162. -/
def saveRouters {K V : Type} (ops : Ops V K) (what : Str) (routers : List V) : List (Str × V) :=
  routers.zipIdx.map (fun p => (layerName p.2 what, ops.cast p.1))

/-! ## DeepSeek -/

/-- One step of the loop of `DeepseekMoE.write_model`, deepseek.py:132-170. -/
def deepseekWeight {M K V : Type} [DecidableEq M] (ops : Ops V K) (disk : M → Loader V) (c : Config M K) (w : WeightInfo) :
    Except Err (List (Str × V)) :=
  if hasMlp w.name then
    match copyExperts ops disk c w with
    | .error e => .error e
    | .ok xs =>
      match c.sharedList with
      | [] => .ok xs
      | s :: _ => (asList (copyOut ops w (loaderFor disk c s.source) (some s) (hasDown w.name) (sharedName cs!"shared_experts" w.name))).map (xs ++ ·)
  else asList (copyOut ops w (loaderFor disk c c.base) (none : Option (Expert M K)) false w.name)

/-- `DeepseekMoE.write_model`, deepseek.py:101-181: the tensors saved.  `weights` are the weights of the base model's architecture. (config.json
is not modelled.) -/
def writeDeepseek {M K V : Type} [DecidableEq M] (ops : Ops V K) (disk : M → Loader V) (c : Config M K) (weights : List WeightInfo)
    (routers : List V) : Except Err (List (Str × V)) :=
  (each (deepseekWeight ops disk c) weights).map (· ++ saveRouters ops cs!"gate.weight" routers)

/-! ## Qwen -/

/-- `endswith`  [moe/qwen.py:157-165] -/
def endsWith (suffix s : Str) : Bool := suffix.isSuffixOf s

/-- A weight of the base model, qwen.py:151-178. -/
def qwenBase {K V : Type} (ops : Ops V K) (l : Loader V) (w : WeightInfo) : Except Err (List (Str × V)) :=
  match get l w.name (w.aliases.getD []) with
  | some t => .ok [(w.name, ops.cast t)]
  | none =>
    if endsWith cs!"_proj.bias" w.name then .ok [(w.name, ops.cast (ops.zeros w.name))]
    else if w.optional then .ok []
    else .error (.key w.name)

/-- One step of the loop of `QwenMoE.write_model`, qwen.py:123-178; `s` is the shared expert. -/
def qwenWeight {M K V : Type} [DecidableEq M] (ops : Ops V K) (disk : M → Loader V) (c : Config M K) (s : Expert M K) (w : WeightInfo) :
    Except Err (List (Str × V)) :=
  if hasMlp w.name then
    match copyExperts ops disk c w with
    | .error e => .error e
    | .ok xs =>
      (asList (copyOut ops w (loaderFor disk c s.source) (some s) (hasDown w.name) (sharedName cs!"shared_expert" w.name))).map (xs ++ ·)
  else qwenBase ops (disk c.base) w

/-- The two router weights of each layer, qwen.py:180-192; too few shared ones are an `IndexError`. -/
def qwenRouters {K V : Type} (ops : Ops V K) (layer : Nat) : List V → List V → Except Err (List (Str × V))
  | [], _ => .ok []
  | _ :: _, [] => .error .index
  | r :: rs, g :: gs =>
    (qwenRouters ops (layer + 1) rs gs).map
      ([(layerName layer cs!"gate.weight", ops.cast r), (layerName layer cs!"shared_expert_gate.weight", ops.cast g)] ++ ·)

/-- `QwenMoE.write_model`, qwen.py:94-194; without shared experts `config.shared_experts[0]` fails. -/
def writeQwen {M K V : Type} [DecidableEq M] (ops : Ops V K) (disk : M → Loader V) (c : Config M K) (weights : List WeightInfo)
    (routers sharedRouters : List V) : Except Err (List (Str × V)) :=
  match c.shared with
  | none => .error .type
  | some [] => .error .index
  | some (s :: _) =>
    match each (qwenWeight ops disk c s) weights with
    | .error e => .error e
    | .ok xs => (qwenRouters ops 0 routers sharedRouters).map (xs ++ ·)

/-! ## Mixtral and Qwen3: packed experts -/

/-- How an architecture stores the three matrices: names in the models and names of the parts given to the conversion, mixtral.py:142-146 and
qwen3.py:124; and the conversions of the transformers library ("mixtral", "qwen3_moe"). -/
structure Packed (V : Type) where
  /-- gate, down and up projection or gate, up and down projection, in the order of the loop -/
  params : List (Str × Str)
  transforms : List (Verif.Convert.Transform V)

/-- mixtral.py:142-146 -/
def mixtralParams : List (Str × Str) := [(cs!"gate_proj", cs!"w1"), (cs!"down_proj", cs!"w2"), (cs!"up_proj", cs!"w3")]

/-- qwen3.py:124 -/
def qwen3Params : List (Str × Str) := [(cs!"gate_proj", cs!"gate_proj"), (cs!"up_proj", cs!"up_proj"), (cs!"down_proj", cs!"down_proj")]

/-- One tensor of an expert, mixtral.py:147-160, qwen3.py:125-136: whether it is a down projection, the name of the part, the tensor. -/
def readPart {M K V : Type} [DecidableEq M] (ops : Ops V K) (disk : M → Loader V) (c : Config M K) (layer : Nat) (expert : Expert M K × Nat)
    (p : Str × Str) : Except Err (Bool × Str × V) :=
  match loaderFor disk c expert.1.source with
  | none => .error .attribute
  | some l =>
    match l (layerName layer (p.1 ++ cs!".weight")) with
    | none => .error (.key (layerName layer (p.1 ++ cs!".weight")))
    | some t =>
      let out := layerName layer (cs!"experts." ++ Nat.toDigits 10 expert.2 ++ cs!"." ++ p.2 ++ cs!".weight")
      .ok (decide (p.1 = cs!"down_proj"), out, noiseAndScale ops out t expert.1 (decide (p.1 = cs!"down_proj")))

/-- All tensors of a layer's experts, mixtral.py:138-160, qwen3.py:120-136. -/
def readLayer {M K V : Type} [DecidableEq M] (ops : Ops V K) (disk : M → Loader V) (c : Config M K) (params : List (Str × Str)) (layer : Nat) :
    Except Err (List (Bool × Str × V)) :=
  each (fun e => each (fun p => (readPart ops disk c layer e p).map ([·])) params) c.experts.zipIdx

/-- The parts of one of the two dictionaries `gate_up_sources` and `down_sources`.  [moe/mixtral.py:138-160] -/
def partsOf {V : Type} (down : Bool) (xs : List (Bool × Str × V)) : List (Str × V) := (xs.filter (fun x => x.1 = down)).map Prod.snd

/-- `convert_and_save_checkpoint_tensors`, common.py:107-124. -/
def convertSave {K V : Type} (ops : Ops V K) (ts : List (Verif.Convert.Transform V)) (sources : List (Str × V)) (target : Str) :
    Except Err (List (Str × V)) :=
  match Verif.Convert.convertTensors ts sources target with
  | none => .error .runtime
  | some t => .ok [(target, ops.cast t)]

/-- The experts of a layer, mixtral.py:136-177, qwen3.py:118-153. -/
def packLayer {M K V : Type} [DecidableEq M] (ops : Ops V K) (disk : M → Loader V) (c : Config M K) (k : Packed V) (layer : Nat) :
    Except Err (List (Str × V)) :=
  match readLayer ops disk c k.params layer with
  | .error e => .error e
  | .ok xs =>
    match convertSave ops k.transforms (partsOf false xs) (layerName layer cs!"experts.gate_up_proj") with
    | .error e => .error e
    | .ok a => (convertSave ops k.transforms (partsOf true xs) (layerName layer cs!"experts.down_proj")).map (a ++ ·)

/-- `MixtralMoE.write_model`, mixtral.py:94-188; `weights` are the weights of the Mistral definition. -/
def writeMixtral {M K V : Type} [DecidableEq M] (ops : Ops V K) (disk : M → Loader V) (c : Config M K) (weights : List WeightInfo)
    (transforms : List (Verif.Convert.Transform V)) (numLayers : Nat) (routers : List V) : Except Err (List (Str × V)) :=
  if routers.length ≠ numLayers then .error .assertion
  else
    match each (fun w => if hasMlp w.name then .ok [] else asList (copyOut ops w (loaderFor disk c c.base) (none : Option (Expert M K)) false w.name)) weights with
    | .error e => .error e
    | .ok xs =>
      match each (packLayer ops disk c { params := mixtralParams, transforms := transforms }) (List.range numLayers) with
      | .error e => .error e
      | .ok ys => .ok (xs ++ ys ++ saveRouters ops cs!"gate.weight" routers)

/-- A weight of the base model, qwen3.py:100-116. -/
def qwen3Base {K V : Type} (ops : Ops V K) (l : Loader V) (w : WeightInfo) : Except Err (List (Str × V)) :=
  match get l w.name (w.aliases.getD []) with
  | some t => .ok [(w.name, ops.cast t)]
  | none => if w.optional then .ok [] else .error (.key w.name)

/-- `Qwen3MoE.write_model`, qwen3.py:74-164; `weights` are the weights of the Qwen3 definition. -/
def writeQwen3 {M K V : Type} [DecidableEq M] (ops : Ops V K) (disk : M → Loader V) (c : Config M K) (weights : List WeightInfo)
    (transforms : List (Verif.Convert.Transform V)) (numLayers : Nat) (routers : List V) : Except Err (List (Str × V)) :=
  match each (fun w => if hasMlp w.name then .ok [] else qwen3Base ops (disk c.base) w) weights with
  | .error e => .error e
  | .ok xs =>
    match each (packLayer ops disk c { params := qwen3Params, transforms := transforms }) (List.range numLayers) with
    | .error e => .error e
    | .ok ys => .ok (xs ++ ys ++ saveRouters ops cs!"gate.weight" routers)

/-! ## Routers -/

/-- What `get_gate_params` computes with: `probe` is `_do_it(tokenize_prompts(prompts))`, one vector per layer (cheap embeddings, hidden states:
`mode` tells which), `unit` the division by the clamped norm, `random layer expert` the random rows.  [moe/router.py:82-149] -/
structure Gates (W : Type) where
  probe : Str → List Str → List W
  sub : W → W → W
  unit : W → W
  random : Nat → Nat → W

/-- The modes with a `_do_it`, router.py:102-138. -/
def probeModes : List Str := [cs!"cheap_embed", cs!"hidden", cs!"hidden_avg", cs!"hidden_last"]

/-- The vectors of one expert, router.py:141-149: one per layer. `for p in None` and `None(...)` (unknown mode) are `TypeError`s. -/
def gateOf {M K W : Type} (g : Gates W) (mode : Str) (e : Expert M K) : Except Err (List W) :=
  if mode ∈ probeModes then
    match e.positive with
    | none => .error .type
    | some p =>
      let h := g.probe mode p
      let h := if given e.negative then List.zipWith g.sub h (g.probe mode (e.negative.getD [])) else h
      .ok (h.map g.unit)
  else .error .type

/-- `get_gate_params`, router.py:71-151: per layer one row for each expert (`torch.stack` of nothing is a `RuntimeError`). -/
def gateParams {M K W : Type} (g : Gates W) (mode : Str) (numLayers : Nat) (experts : List (Expert M K)) : Except Err (List (List W)) :=
  if mode = cs!"random" ∨ mode = cs!"uniform_random" then
    .ok ((List.range numLayers).map (fun l => (List.range experts.length).map (g.random l)))
  else if experts = [] then .error .runtime
  else
    match each (fun e => (gateOf g mode e).map ([·])) experts with
    | .error e => .error e
    | .ok vs => .ok ((List.range numLayers).map (fun l => vs.filterMap (fun v => v[l]?)))

/-- `experts` that get rows, scripts/moe.py:45-53. -/
def needGates {M K : Type} (c : Config M K) : Except Err (List (Expert M K)) :=
  match c.sharedList with
  | [] => .ok c.experts
  | s :: ss =>
    let has := (s :: ss).any (fun e => given e.positive)
    if (s :: ss).any (fun e => given e.positive != has) then .error .assertion
    else if has || decide (c.gateMode = cs!"random" ∨ c.gateMode = cs!"uniform_random") then .ok (c.experts ++ s :: ss)
    else .ok c.experts

/-- The routers `build` hands on, scripts/moe.py:44-78: the experts' rows and the shared experts' rows of each layer. -/
def routersOf {M K W : Type} (g : Gates W) (c : Config M K) (numLayers : Nat) : Except Err (List (List W × List W)) :=
  match needGates c with
  | .error e => .error e
  | .ok need =>
    match gateParams g c.gateMode numLayers need with
    | .error e => .error e
    | .ok rows => .ok (rows.map (fun r => (r.take c.experts.length, r.drop c.experts.length)))

end Verif.Moe
