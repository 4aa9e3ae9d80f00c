import Verif.Model.Shipped
import Verif.Model.ArchData

/-! # The planner's view of the architectures defined in python (`/repo/mergekit/architecture/moe_defs.py`, `/repo/mergekit/architecture/__init__.py:34-51`) -/

namespace Verif.Shipped

open Verif.ModelRef (Ref Str)
open Verif.Config Verif.Plan

/-- The two architectures, moe_defs.py:19-107.  AFMoE takes the number of experts from the configuration of the first model (`from_config`, moe_defs.py:27-28, with
__init__.py:71-84); GLM4-MoE does not use it. -/
inductive MoeKind where
  | afmoe (numExperts : Nat)
  | glm4

/-- `AFMOE_PARTIAL_MODULE_ARCH`, moe_defs.py:15-16, and `GLM4_MODULE_ARCH`, moe_defs.py:57-58. -/
def MoeKind.file : MoeKind → Arch.Module
  | .afmoe _ => Arch.Data.afmoe_partial.headD ⟨[], [], [], none, none⟩
  | .glm4 => Arch.Data.glm4moe.headD ⟨[], [], [], none, none⟩

/-- `layer_weights(index)` with a configuration that has `n` layers and `dense` as `first_k_dense_replace`, moe_defs.py:39-52, 79-107.  (A negative index never gets here from a
configuration whose slices begin at layers that exist; it gives no weights here.  Templates that cannot be expanded: see `configured`.) -/
def MoeKind.layer (k : MoeKind) (n dense : Nat) : Int → List LoadTask.WeightInfo
  | .negSucc _ => []
  | .ofNat i =>
    match k with
    | .afmoe e => match Arch.afmoeLayer k.file n e i with
      | .error _ => []
      | .ok ws => ws.map toPlan
    | .glm4 => match Arch.glm4Layer k.file n dense i with
      | .error _ => []
      | .ok ws => ws.map toPlan

/-- An architecture defined in python, what the configurations of the output and of the models say about `num_hidden_layers` and `first_k_dense_replace`, the names in the
models' indexes, and the parameters of the merge method.  [plan.py:37-88] -/
structure MoeFamily (K : Type) where
  kind : MoeKind
  outLayers : Nat
  outDense : Nat
  layers : Ref → Nat
  dense : Ref → Nat
  stored : Ref → List Str
  params : List (ParamDef K)
  tensorParams : List (ParamDef K)

/-- What the planner asks, plan.py:76-88.  The only module is called "default", __init__.py:39-51. -/
def MoeFamily.env {K : Type} (f : MoeFamily K) : Env K where
  moduleNames := ["default"]
  outPre _ := configured f.kind.file f.outLayers none f.kind.file.pre
  outLayer _ i := f.kind.layer f.outLayers f.outDense (i : Int)
  outPost _ := configured f.kind.file f.outLayers none f.kind.file.post
  inLayer r _ i := f.kind.layer (f.layers r) (f.dense r) i
  numLayers r _ := (f.layers r : Int)
  indexNames := f.stored
  params := f.params
  tensorParams := f.tensorParams

end Verif.Shipped
