import Verif.Model.Moe
import Verif.Model.Evolve

/-! # Merging into a model of vLLM (`/repo/mergekit/evo/actors.py:217-230, 274-333`)

vLLM keeps some weights of a model in one parameter; merged tensors are put into their part of it. -/

namespace Verif.Packed

open Verif.ModelRef (Str)
open Verif.Moe (replace)

/-- The parts of a parameter: `"q"`, `"k"`, `"v"`, 0, 1.  [actors.py:287-293] -/
inductive Shard where
  | q | k | v | first | second
deriving DecidableEq

/-- `stacked_mapping`, actors.py:286-293. -/
def stacked : List (Str × Str × Shard) := [
  (cs!".q_proj.", cs!".qkv_proj.", .q),
  (cs!".k_proj.", cs!".qkv_proj.", .k),
  (cs!".v_proj.", cs!".qkv_proj.", .v),
  (cs!".gate_proj.", cs!".gate_up_proj.", .first),
  (cs!".up_proj.", cs!".gate_up_proj.", .second)]

/-- `needle in name`  [actors.py:321] -/
def occurs (needle name : Str) : Bool := name.tails.any (fun t => needle.isPrefixOf t)

/-- The parameters of vLLM: `load target shard value old` is what `param.weight_loader(param, value, shard_id)` leaves in the parameter `target`,
`none` if it raises (as it does for parameters without parts).  [actors.py:323-325; the vllm library] -/
abbrev Loader (T : Type) : Type := Str → Shard → T → T → Option T

/-- The loop over `stacked_mapping`, actors.py:319-330: `none` for `KeyError` (no such parameter), whatever the loader raises, and "Unknown parameter". -/
def loadStacked {T : Type} (load : Loader T) (name : Str) (t : T) (params : List (Str × T)) : List (Str × Str × Shard) → Option (List (Str × T))
  | [] => none
  | (needle, replacement, shard) :: rest =>
    if occurs needle name then
      let target := replace needle replacement name
      match params.lookup target with
      | none => none
      | some old =>
        match load target shard t old with
        | none => none
        | some new => some (params.map (fun e => if e.1 == target then (e.1, new) else e))
    else loadStacked load name t params rest

/-- One merged tensor, actors.py:314-333. -/
def loadOne {T : Type} (vllm : Option (Loader T)) (params : List (Str × T)) (name : Str) (t : T) : Option (List (Str × T)) :=
  if params.any (·.1 == name) then some (params.map (fun e => if e.1 == name then (e.1, t) else e))
  else
    match vllm with
    | none => none
    | some load => loadStacked load name t params stacked

/-- The loop over the merged tensors, actors.py:311-335. -/
def loadAll {T : Type} (vllm : Option (Loader T)) : List (Str × T) → List (Str × T) → Option (List (Str × T))
  | [], params => some params
  | (name, t) :: rest, params =>
    match loadOne vllm params name t with
    | none => none
    | some params => loadAll vllm rest params

/-- `max_model_len`, actors.py:220-230: the number of positions (if it is there), the sliding window, at most 8192.  (`max_model_len or 1024`: no
number and 0 are replaced.) -/
def maxLen (positions window : Option Nat) : Option Nat :=
  let a := match window with
    | some w => some (min (if positions.getD 0 = 0 then 1024 else positions.getD 0) w)
    | none => positions
  match a with
  | some n => if 8192 < n then some 8192 else some n
  | none => none

end Verif.Packed
