import Verif.Model.Config
import Verif.Model.LoadTask
import Verif.Model.Graph

/-! # Planning a merge (`/repo/mergekit/plan.py`)

The planner appends to `self._tensors` and counts `self._current_module_layers`; here each function
returns the list of what it appends, and the counter is passed in. -/

namespace Verif.Plan

open Verif.ModelRef (Str Ref)
open Verif.Config
open Verif.LoadTask (WeightInfo resultSet)

/-- `ConfigParameterDef` of a merge method (merge_methods/base.py:38-41). -/
structure ParamDef (K : Type) where
  name : Str
  required : Bool := false
  default : Option (Scalar K) := none

/-- What the planner asks of the architecture, the input models and the merge method.  [plan.py:37-88] -/
structure Env (K : Type) where
  /-- keys of `arch_info.modules` -/
  moduleNames : List String
  /-- `_out_module_arch(module).pre_weights()` -/
  outPre : String → List WeightInfo
  /-- `_out_module_arch(module).layer_weights(index)` -/
  outLayer : String → Nat → List WeightInfo
  /-- `_out_module_arch(module).post_weights()` -/
  outPost : String → List WeightInfo
  /-- `_model_arch(model).get_module(module).layer_weights(index)` -/
  inLayer : Ref → String → Int → List WeightInfo
  /-- `module_arch.num_layers(model.config())` -/
  numLayers : Ref → String → Int
  /-- `LoaderCache().get(model).index.tensor_paths` -/
  indexNames : Ref → List Str
  /-- `method.parameters()` and `method.tensor_parameters()` -/
  params : List (ParamDef K)
  tensorParams : List (ParamDef K)

/-- How planning may fail.  [plan.py:90-331] -/
inductive PlanError where
  /-- "Model has multiple modules, must use modules: config syntax", plan.py:104-108 -/
  | needModules
  /-- `self.arch_info.modules[module_name]`: KeyError -/
  | unknownModule
  /-- "All inputs to a slice must contain the same number of layers", plan.py:276-279 -/
  | unequalSlices
  /-- `slice_lengths[0]`, plan.py:280: IndexError -/
  | noSources
  /-- `slices[0]`, plan.py:309: IndexError (a validated module has slices) -/
  | noSlices
  /-- `weights_in[j][idx]`, plan.py:260: IndexError -/
  | fewerWeights
  /-- `[w_in.name] + (w_in.aliases or [])` with a non-empty tuple of aliases, plan.py:172: TypeError -/
  | aliasTuple
  /-- raised by `ConfigReader.parameter` -/
  | config (e : Config.Err)
deriving DecidableEq

/-- A merge task: what `make_task` is given (plan.py:225-236).  Data type, device and tokenizer treatment of
embeddings are left out. -/
structure Planned (K : Type) where
  weight : WeightInfo
  inputs : List (Ref × WeightInfo)
  params : List (Str × Option (Scalar K))
  tensorParams : List (Ref × List (Str × Option (Scalar K)))
  baseModel : Option Ref

/-- `dict(...)` from pairs keyed by model: later entries replace earlier ones.  [plan.py:191-202] -/
def dictOf {V : Type} (es : List (Ref × V)) : List (Ref × V) := es.foldl (fun d e => resultSet d e.1 e.2) []

section
variable {K : Type} [Field K] [LinearOrder K] [FloorRing K]

/-- Is an optional weight present in any input?  plan.py:167-175. -/
def anyWeight (env : Env K) : List (Ref × WeightInfo) → Except PlanError Bool
  | [] => .ok false
  | (m, w) :: rest =>
    if w.aliases ≠ [] then .error .aliasTuple
    else if w.name ∈ env.indexNames m then .ok true
    else anyWeight env rest

/-- Reading a list of parameters, plan.py:184-187, 196-202. -/
def readParams (r : Reader K) (model : Option Ref) (isBase : Bool) :
    List (ParamDef K) → Except PlanError (List (Str × Option (Scalar K)))
  | [] => .ok []
  | p :: ps =>
    match r.parameter p.name model p.default (p.required && !isBase) with
    | .error e => .error (.config e)
    | .ok v =>
      match readParams r model isBase ps with
      | .error e => .error e
      | .ok vs => .ok ((p.name, v) :: vs)

/-- The per-model parameters, plan.py:191-202. -/
def readTensorParams (env : Env K) (r : Reader K) (base : Option Ref) :
    List (Ref × WeightInfo) → Except PlanError (List (Ref × List (Str × Option (Scalar K))))
  | [] => .ok []
  | (m, w) :: rest =>
    match readParams (r.forTensor w.name) (some m) (decide (some m = base)) env.tensorParams with
    | .error e => .error e
    | .ok ps =>
      match readTensorParams env r base rest with
      | .error e => .error e
      | .ok rs => .ok ((m, ps) :: rs)

/-- plan.py:181-236. -/
def planPresent (env : Env K) (weight : WeightInfo) (ins : List (Ref × WeightInfo)) (r : Reader K) :
    Except PlanError (Option (Planned K)) :=
  match readParams (r.forTensor weight.name) none false env.params with
  | .error e => .error e
  | .ok gp =>
    match readTensorParams env r r.baseModel ins with
    | .error e => .error e
    | .ok tp => .ok (some ⟨weight, dictOf ins, gp, dictOf tp, r.baseModel⟩)

/-- `plan_tensor`, plan.py:158-236; `none` if the weight is skipped. -/
def planTensor (env : Env K) (weight : WeightInfo) (weightsIn : List WeightInfo) (models : List Ref) (r : Reader K) :
    Except PlanError (Option (Planned K)) :=
  if weight.optional then
    match anyWeight env (models.zip weightsIn) with
    | .error e => .error e
    | .ok false => .ok none
    | .ok true => planPresent env weight (models.zip weightsIn) r
  else planPresent env weight (models.zip weightsIn) r

/-- `[weights_in[j][idx] for j in ...]`, plan.py:260. -/
def column (weightsIn : List (List WeightInfo)) (idx : Nat) : Option (List WeightInfo) :=
  weightsIn.mapM (fun ws => ws[idx]?)

/-- The loop over the weights of a layer, plan.py:257-263. -/
def planWeights (env : Env K) (weightsIn : List (List WeightInfo)) (models : List Ref) (r : Reader K) (idx : Nat) :
    List WeightInfo → Except PlanError (List (Option (Planned K)))
  | [] => .ok []
  | w :: ws =>
    match column weightsIn idx with
    | none => .error .fewerWeights
    | some col =>
      match planTensor env w col models r with
      | .error e => .error e
      | .ok o =>
        match planWeights env weightsIn models r (idx + 1) ws with
        | .error e => .error e
        | .ok os => .ok (o :: os)

/-- `plan_layer`, plan.py:238-265. -/
def planLayer (env : Env K) (module : String) (sources : List (InSlice K)) (offset : Nat) (t : K) (r : Reader K)
    (current : Nat) : Except PlanError (List (Option (Planned K))) :=
  planWeights env (sources.map (fun s => env.inLayer s.model module (s.start + offset)))
    (sources.map (·.model)) (r.withT t) 0 (env.outLayer module current)

/-- The relative depth, plan.py:287-290. -/
def depth (numLayers : Int) (idx : Nat) : K :=
  if numLayers > 1 then (idx : K) / ((numLayers : K) - 1) else 1

/-- The loop over the layers of a slice, plan.py:285-298, from layer `idx` on with `todo` layers to go; one list per layer. -/
def planLayers (env : Env K) (module : String) (sources : List (InSlice K)) (numLayers : Int) (r : Reader K) :
    (todo idx current : Nat) → Except PlanError (List (List (Option (Planned K))))
  | 0, _, _ => .ok []
  | todo + 1, idx, current =>
    match planLayer env module sources idx (depth numLayers idx) r current with
    | .error e => .error e
    | .ok l =>
      match planLayers env module sources numLayers r todo (idx + 1) (current + 1) with
      | .error e => .error e
      | .ok ls => .ok (l :: ls)

/-- `plan_slice`, plan.py:267-298. -/
def planSlice (env : Env K) (config : MergeConfig K) (module : String) (moduleDef : OutModule K)
    (definition : OutSlice K) (current : Nat) : Except PlanError (List (List (Option (Planned K)))) :=
  match definition.sources.map (fun s => s.stop - s.start) with
  | [] => .error .noSources
  | n :: ns =>
    if (n :: ns).all (fun m => m = n) then
      planLayers env module definition.sources n
        { config := config, t := 0, sliceOut := some definition, module := some moduleDef } n.toNat 0 current
    else .error .unequalSlices

/-- The loop over the slices, plan.py:316-321. -/
def planSlices (env : Env K) (config : MergeConfig K) (module : String) (moduleDef : OutModule K) :
    List (OutSlice K) → Nat → Except PlanError (List (List (Option (Planned K))))
  | [], _ => .ok []
  | s :: ss, current =>
    match planSlice env config module moduleDef s current with
    | .error e => .error e
    | .ok ls =>
      match planSlices env config module moduleDef ss (current + ls.length) with
      | .error e => .error e
      | .ok rest => .ok (ls ++ rest)

/-- The loops over the weights before and after the layers, plan.py:306-314, 323-331: `count` is
`len(definition.slices[0].sources)` and `s` the slice used. -/
def planEdge (env : Env K) (config : MergeConfig K) (moduleDef : OutModule K) (count : Nat) (s : OutSlice K) :
    List WeightInfo → Except PlanError (List (Option (Planned K)))
  | [] => .ok []
  | w :: ws =>
    match planTensor env w (List.replicate count w) (s.sources.map (·.model))
        ((({ config := config, t := 0, module := some moduleDef } : Reader K).forTensor w.name).forOutSlice s) with
    | .error e => .error e
    | .ok o =>
      match planEdge env config moduleDef count s ws with
      | .error e => .error e
      | .ok os => .ok (o :: os)

/-- What planning a module yields: the weights before, the layers, the weights after (`none`: skipped).  [plan.py:300-331] -/
structure ModulePlan (K : Type) where
  pre : List (Option (Planned K))
  layers : List (List (Option (Planned K)))
  post : List (Option (Planned K))

/-- The tensors planned, in order (`self._tensors`).  [plan.py:225-236, 333-363] -/
def ModulePlan.tensors {K : Type} (p : ModulePlan K) : List (Planned K) :=
  (p.pre ++ p.layers.flatten ++ p.post).filterMap id

/-- `plan_module`, plan.py:300-331. -/
def planModule (env : Env K) (config : MergeConfig K) (module : String) (definition : OutModule K) :
    Except PlanError (ModulePlan K) :=
  match definition.slices with
  | none => .error .noSlices
  | some [] => .error .noSlices
  | some (s :: ss) =>
    match planEdge env config definition s.sources.length s (env.outPre module) with
    | .error e => .error e
    | .ok pre =>
      match planSlices env config module definition (s :: ss) 0 with
      | .error e => .error e
      | .ok layers =>
        match planEdge env config definition s.sources.length ((s :: ss).getLast (by simp)) (env.outPost module) with
        | .error e => .error e
        | .ok post => .ok ⟨pre, layers, post⟩

/-! ## Normalization -/

/-- plan.py:94-100: a list of models is given to every module of the architecture. -/
def modelsToModules (env : Env K) (c : MergeConfig K) : MergeConfig K :=
  if truthy c.models then
    { c with modules := some (env.moduleNames.map (fun m => (m, { models := c.models }))), models := none }
  else c

/-- plan.py:103-113. -/
def slicesToModules (env : Env K) (c : MergeConfig K) : Except PlanError (MergeConfig K) :=
  if truthy c.slices then
    match env.moduleNames with
    | [m] => .ok { c with modules := some [(m, { slices := c.slices })], slices := none }
    | _ => .error .needModules
  else .ok c

/-- plan.py:124-138. -/
def sliceOfModel (env : Env K) (module : String) (m : InModel K) : InSlice K :=
  { model := m.model, start := 0, stop := env.numLayers m.model module, parameters := m.parameters }

/-- plan.py:120-156. -/
def normalizeModule (env : Env K) (base : Option Ref) (module : String) (d : OutModule K) : OutModule K :=
  if truthy d.models then
    let ms := d.models.getD []
    let extra : List (InSlice K) :=
      match base with
      | none => []
      | some b =>
        if ms.any (fun m => m.model = b) then []
        else [{ model := b, start := 0, stop := env.numLayers b module }]
    { d with slices := some [{ sources := ms.map (sliceOfModel env module) ++ extra }], models := none }
  else d

/-- plan.py:116-156. -/
def normalizeModules (env : Env K) (base : Option Ref) :
    List (String × OutModule K) → Except PlanError (List (String × OutModule K))
  | [] => .ok []
  | (n, d) :: rest =>
    if n ∈ env.moduleNames then
      match normalizeModules env base rest with
      | .error e => .error e
      | .ok ms => .ok ((n, normalizeModule env base n d) :: ms)
    else .error .unknownModule

/-- `normalize_config`, plan.py:90-156. -/
def normalizeConfig (env : Env K) (c : MergeConfig K) : Except PlanError (MergeConfig K) :=
  match slicesToModules env (modelsToModules env c) with
  | .error e => .error e
  | .ok c =>
    match normalizeModules env c.baseModel (c.modules.getD []) with
    | .error e => .error e
    | .ok ms => .ok { c with modules := some ms }

/-- The loop over the modules, plan.py:381-382. -/
def planModules (env : Env K) (c : MergeConfig K) : List (String × OutModule K) → Except PlanError (List (ModulePlan K))
  | [] => .ok []
  | (n, d) :: rest =>
    match planModule env c n d with
    | .error e => .error e
    | .ok p =>
      match planModules env c rest with
      | .error e => .error e
      | .ok ps => .ok (p :: ps)

/-- `_plan`, plan.py:377-382. -/
def plan (env : Env K) (c : MergeConfig K) : Except PlanError (List (ModulePlan K)) :=
  match normalizeConfig env c with
  | .error e => .error e
  | .ok c => planModules env c (c.modules.getD [])

end

/-! ## The layer count of the output configuration (`/repo/mergekit/merge.py:297-314`) -/

/-- `sum([s.sources[0].layer_range[1] - s.sources[0].layer_range[0] for s in slices])`, merge.py:302-307; `none` if some slice
has no source. -/
def countLayers {K : Type} : List (OutSlice K) → Option Int
  | [] => some 0
  | s :: ss =>
    match s.sources with
    | [] => none
    | src :: _ => (countLayers ss).map (fun n => (src.stop - src.start) + n)

/-- `module_layers[module]`, merge.py:297-314: `none` if not set (the base configuration's count is kept).  Computed from the
configuration before normalization. -/
def outLayerCount {K : Type} (c : MergeConfig K) (module : String) : Option (Option Int) :=
  match (c.modules.getD []).find? (fun e => decide (e.1 = module)) with
  | some (_, d) => if truthy d.slices then some (countLayers (d.slices.getD [])) else none
  | none => if truthy c.slices then some (countLayers (c.slices.getD [])) else none

/-! ## Tasks for writing to disk (plan.py:333-363) -/

/-- The tasks `plan_to_disk` creates: the writer, one merge task and one save task per planned tensor, the finalizer, the
tokenizer task; `input k` stands for the tasks merge tasks depend on.  [plan.py:333-363] -/
inductive DiskTask where
  | writer
  | merge (i : Nat)
  | save (i : Nat)
  | finalize
  | tokenizer
  | input (k : Nat)
deriving DecidableEq

/-- Arguments of the tasks when `count` tensors are planned: `SaveTensor.arguments` (tasks.py:215-216) and
`FinalizeModel.arguments` (tasks.py:241-245); those of merge and input tasks are given. -/
def diskArguments (count : Nat) (others : DiskTask → List (String × DiskTask)) : DiskTask → List (String × DiskTask)
  | .writer => []
  | .save i => [("writer", .writer), ("tensor", .merge i)]
  | .finalize => ("writer", .writer) :: (List.range count).map (fun i => ("_unused_" ++ i.repr, .save i))
  | t => others t

/-- The targets: all saves, then the finalizer, then the tokenizer if there is one (plan.py:360-363). -/
def diskTargets (count : Nat) (withTokenizer : Bool) : List DiskTask :=
  (List.range count).map .save ++ [.finalize] ++ (if withTokenizer then [.tokenizer] else [])

end Verif.Plan
