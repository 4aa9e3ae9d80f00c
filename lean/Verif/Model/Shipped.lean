import Verif.Model.Plan
import Verif.Model.Arch

/-! # The planner's view of architecture definitions (`/repo/mergekit/plan.py:76-88`, `/repo/mergekit/architecture/base.py:86-160`)

`Plan.Env` takes the weights of the output and of the inputs as functions.  Here these functions are made from the modules of an architecture,
as `ConfiguredModuleArchitecture` makes them from the templates of `JsonModuleArchitecture`. -/

namespace Verif.Shipped

open Verif.ModelRef (Ref Str)
open Verif.Config Verif.Plan

/-- A weight as the planner knows it, base.py:29-35.  (`None` and the empty tuple of other names are the same to it, plan.py:172, io/tasks.py:86.) -/
def toPlan (w : Arch.WeightInfo) : LoadTask.WeightInfo where
  name := w.name
  optional := w.optional
  aliases := (w.aliases.getD []).map String.ofList
  tiedNames := (w.tiedNames.getD []).map String.ofList
  forceDtype := w.forceDtype.map String.ofList
  isEmbed := w.isEmbed

/-- `ConfiguredModuleArchitecture.pre_weights`, `post_weights` (no layer) and `layer_weights(index)`, base.py:95-112, with
json_definitions.py:69-88.  A template that cannot be expanded raises there; here it gives no weights (`expands` in Props/Shipped.lean:
this never happens with the definitions shipped). -/
def configured (m : Arch.Module) (n : Nat) (layer : Option Int) (ws : List Arch.WeightInfo) : List LoadTask.WeightInfo :=
  match Arch.substituteAll n layer ws with
  | .error _ => []
  | .ok vs => vs.map (fun v => toPlan (Arch.prefixWeight v m.weightPrefix))

/-- An architecture (`arch_info.modules`), what the configurations of the output and of the models say about the number of layers of each module
(`config.num_hidden_layers` and the like), the names in the models' indexes, and the parameters of the merge method.  [plan.py:37-88] -/
structure Family (K : Type) where
  modules : List (String × Arch.Module)
  outLayers : String → Nat
  layers : Ref → String → Nat
  stored : Ref → List Str
  params : List (ParamDef K)
  tensorParams : List (ParamDef K)

/-- `self.arch_info.modules[module]`, plan.py:77; base.py:150-156. -/
def Family.module {K : Type} (f : Family K) (name : String) : Option Arch.Module :=
  (f.modules.find? (fun e => e.1 == name)).map Prod.snd

/-- What the planner asks, made from these: `_out_module_arch` with the output's configuration, plan.py:76-82, `_model_arch(model).get_module(module)`
with the model's, plan.py:84-88, base.py:150-156, and `num_layers`, base.py:72-74, json_definitions.py:90-93.  A module that does not exist
raises `KeyError`; here it has no weights (the planner refuses it before, plan.py:116-117). -/
def Family.env {K : Type} (f : Family K) : Env K where
  moduleNames := f.modules.map Prod.fst
  outPre n := match f.module n with
    | none => []
    | some m => configured m (m.numLayers (f.outLayers n)) none m.pre
  outLayer n i := match f.module n with
    | none => []
    | some m => configured m (m.numLayers (f.outLayers n)) (some (i : Int)) m.layers
  outPost n := match f.module n with
    | none => []
    | some m => configured m (m.numLayers (f.outLayers n)) none m.post
  inLayer r n i := match f.module n with
    | none => []
    | some m => configured m (m.numLayers (f.layers r n)) (some i) m.layers
  numLayers r n := match f.module n with
    | none => 0
    | some m => (m.numLayers (f.layers r n) : Int)
  indexNames := f.stored
  params := f.params
  tensorParams := f.tensorParams

end Verif.Shipped
