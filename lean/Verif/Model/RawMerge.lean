import Verif.Model.Config

/-! # Merging raw checkpoints (`/repo/mergekit/scripts/merge_raw_pytorch.py`) -/

namespace Verif.Raw

open Verif.ModelRef (Str Ref validate)
open Verif.Config (Scalar Setting Params evaluateSetting)

/-- How a run can fail.  [scripts/merge_raw_pytorch.py:65-207] -/
inductive Err where
  /-- `RuntimeError("Missing tensors")`, merge_raw_pytorch.py:129 -/
  | missingTensors
  /-- an exception of `evaluate_setting` -/
  | setting (e : Verif.Config.Err)
  /-- `AttributeError`: `None.get`, 193 -/
  | attribute
  /-- "Missing required parameter ...", 181-183, 203-205 -/
  | required
  /-- `KeyError` of the loader, lazy_tensor_loader.py:130 -/
  | key (tensor : Str)
  /-- a model reference that cannot be parsed back, merge_methods/base.py:29 -/
  | badReference
  /-- anything the merge method raises -/
  | method
deriving DecidableEq

/-- `InputModelDefinition`, merge_raw_pytorch.py:24-26. -/
structure InModel (K : Type) where
  model : Str
  parameters : Option (Params K) := none

/-- `RawPyTorchMergeConfig`, merge_raw_pytorch.py:29-34, without method name and data type. -/
structure Config (K : Type) where
  models : List (InModel K)
  parameters : Option (Params K) := none
  baseModel : Option Str := none

/-- `ConfigParameterDef`, merge_methods/base.py:38-41. -/
structure ParamDef (K : Type) where
  name : Str
  required : Bool := false
  default : Option (Scalar K) := none

/-- A file: its tensors by name.  [io/lazy_tensor_loader.py:81-103] -/
abbrev File (T : Type) := List (Str × T)

/-- `index.tensor_paths.keys()` of a file.  [scripts/merge_raw_pytorch.py:75-98] -/
def names {T : Type} (f : File T) : List Str := f.map Prod.fst

/-- `LazyTensorLoader.get_tensor(name)` of a single file with `raise_on_missing` at its default, lazy_tensor_loader.py:110-145. -/
def getTensor {T : Type} (f : File T) (n : Str) : Except Err T :=
  match f.find? (fun e => decide (e.1 = n)) with
  | some e => .ok e.2
  | none => .error (.key n)

/-- Inserting a key into a dictionary (a present key keeps its place).  [scripts/merge_raw_pytorch.py:101-110] -/
def addKey (l : List Str) (k : Str) : List Str := if k ∈ l then l else l ++ [k]

section
variable {K : Type} [Field K] [LinearOrder K] [FloorRing K] {T : Type}

/-- The keys of `inputs`, merge_raw_pytorch.py:101-110. -/
def inputPaths (c : Config K) : List Str :=
  let ms := (c.models.map (·.model)).foldl addKey []
  match c.baseModel with
  | none => ms
  | some b => addKey ms b

/-- `has_tensor`, merge_raw_pytorch.py:112-116. -/
def hasTensor (disk : Str → File T) (c : Config K) (n : Str) : List Str :=
  (inputPaths c).filter (fun p => decide (n ∈ names (disk p)))

/-- python truth of a value that may be `None`.  [scripts/merge_raw_pytorch.py:173-207] -/
def truthyVal : Option (Scalar K) → Bool
  | none => false
  | some (.num x) => decide (x ≠ 0)
  | some (.str s) => decide (s ≠ [])

/-- One round of the loop merge_raw_pytorch.py:173-185 (`t` is 0 by default, config.py:26). -/
def globalParam (c : Config K) (tensor : Str) (d : ParamDef K) : Except Err (Option (Scalar K)) :=
  let found : Except Err (Option (Scalar K)) :=
    match (c.parameters.getD []).get d.name with
    | none => .ok none
    | some s => (evaluateSetting (some tensor) s (0 : K)).mapError .setting
  match found with
  | .error e => .error e
  | .ok (some v) => .ok (some v)
  | .ok none => if d.required then .error .required else .ok d.default

/-- One round of the loop merge_raw_pytorch.py:188-207 for a parameter and a model. -/
def tensorParam (c : Config K) (tensor : Str) (d : ParamDef K) (m : InModel K) : Except Err (Option (Scalar K)) :=
  match m.parameters with
  | none => .error .attribute
  | some ps =>
    match evaluateSetting (some tensor) ((ps.get d.name).getD (.list [])) (0 : K) with
    | .error e => .error (.setting e)
    | .ok v =>
      if truthyVal v then .ok v
      else match evaluateSetting (some tensor) (((c.parameters.getD []).get d.name).getD (.list [])) (0 : K) with
        | .error e => .error (.setting e)
        | .ok v =>
          if truthyVal v then .ok v
          else if d.required then .error .required else .ok d.default

/-- `construct_param_dicts`, merge_raw_pytorch.py:169-207: parameters by name, and per model path (one entry per parameter and model; the
code nests the dictionaries). -/
def paramDicts (c : Config K) (gdefs tdefs : List (ParamDef K)) (tensor : Str) :
    Except Err (List (Str × Option (Scalar K)) × List ((Str × Str) × Option (Scalar K))) :=
  match gdefs.mapM (fun d => (globalParam c tensor d).map (fun v => (d.name, v))) with
  | .error e => .error e
  | .ok g =>
    match (tdefs.flatMap (fun d => c.models.map (fun m => (d, m)))).mapM
        (fun x => (tensorParam c tensor x.1 x.2).map (fun v => ((x.2.model, x.1.name), v))) with
    | .error e => .error e
    | .ok t => .ok (g, t)

/-- What is planned for a tensor.  [scripts/merge_raw_pytorch.py:131-163] -/
structure Job (K : Type) where
  tensor : Str
  inputs : List Str
  params : List (Str × Option (Scalar K))
  tensorParams : List ((Str × Str) × Option (Scalar K))

/-- The body of the loop over tensor names, merge_raw_pytorch.py:99-163; `none` is `continue`. -/
def planTensor (disk : Str → File T) (c : Config K) (gdefs tdefs : List (ParamDef K)) (union inter : Bool) (n : Str) :
    Except Err (Option (Job K)) :=
  if (hasTensor disk c n).length < (inputPaths c).length ∧ inter = true then .ok none
  else if (hasTensor disk c n).length < (inputPaths c).length ∧ union = false then .error .missingTensors
  else match paramDicts c gdefs tdefs n with
    | .error e => .error e
    | .ok (g, t) => .ok (some ⟨n, inputPaths c, g, t⟩)

/-- `plan_flat_merge`, merge_raw_pytorch.py:75-166.  `order` is the set `all_tensor_names` in the order in which it happens to be listed. -/
def plan (disk : Str → File T) (c : Config K) (gdefs tdefs : List (ParamDef K)) (union inter : Bool) (order : List Str) :
    Except Err (List (Job K)) :=
  match order.mapM (planTensor disk c gdefs tdefs union inter) with
  | .error e => .error e
  | .ok js => .ok (js.filterMap id)

/-- How a model is named in the dictionary the merge method gets: written as JSON and read again, merge_raw_pytorch.py:131-134,
merge_methods/base.py:19-29. -/
def keyOf (path : Str) : Except Err Ref :=
  match validate (Ref.serialize ⟨⟨path, none⟩, none, none⟩) with
  | .ok r => .ok r
  | .error _ => .error .badReference

/-- Loading one input, merge_raw_pytorch.py:65-72 (data type conversion left out). -/
def loadInput (disk : Str → File T) (n : Str) (p : Str) : Except Err (Ref × T) :=
  match getTensor (disk p) n with
  | .error e => .error e
  | .ok x => match keyOf p with
    | .error e => .error e
    | .ok r => .ok (r, x)

/-- Executing the tasks of one tensor: load all inputs, merge, save.  The merge method is any function of its inputs.  [scripts/merge_raw_pytorch.py:65-72, 131-163] -/
def runJob (disk : Str → File T) (method : Job K → List (Ref × T) → Except Err T) (j : Job K) : Except Err (Str × T) :=
  match j.inputs.mapM (loadInput disk j.tensor) with
  | .error e => .error e
  | .ok xs => (method j xs).map (fun y => (j.tensor, y))

/-- The whole command: plan and execute, merge_raw_pytorch.py:230-268; the tensors written.  (In which order the tasks are executed is the
subject of C02; here they are executed as listed, and nothing counts as written if one of them raises.) -/
def run (disk : Str → File T) (c : Config K) (gdefs tdefs : List (ParamDef K)) (union inter : Bool) (order : List Str)
    (method : Job K → List (Ref × T) → Except Err T) : Except Err (List (Str × T)) :=
  match plan disk c gdefs tdefs union inter order with
  | .error e => .error e
  | .ok js => js.mapM (runJob disk method)

end

end Verif.Raw
