import Verif.Model.RawMerge
import Verif.Model.ScriptMain

/-! # `mergekit-pytorch` from the command line (`/repo/mergekit/scripts/merge_raw_pytorch.py`)

Joins the command line (`Model/CommandLine.lean`), the validation of the document, the table of methods (`Model/Registry.lean`) and the planning and execution of a merge of raw checkpoints
(`Model/RawMerge.lean`).  The options that only say how tensors are read and written (devices, threads, formats, shard sizes) have no effect here. -/

namespace Verif.Document

open Verif.ModelRef (Str)

variable {K : Type}

/-- `RawPyTorchMergeConfig`, merge_raw_pytorch.py:24-34: a model is its path and its parameters. -/
structure RawConf (K : Type) where
  method : Str
  models : List (Str × Option (Params K))
  parameters : Option (Params K) := none
  dtype : Option Str := none
  base : Option Str := none

/-- `InputModelDefinition.model_validate`, merge_raw_pytorch.py:24-26. -/
def readRawModel (L : Lib K) : Doc K → R (Str × Option (Params K))
  | .dict d => do
    let m ← req readStr (d.lookup cs!"model")
    let p ← opt (readParams L) (d.lookup cs!"parameters")
    .ok (m, p)
  | _ => .error .validation

/-- `RawPyTorchMergeConfig.model_validate`, merge_raw_pytorch.py:29-34. -/
def readRaw (L : Lib K) : Doc K → R (RawConf K)
  | .dict d => do
    let g ← req readStr (d.lookup cs!"merge_method")
    let ms ← req (readList (readRawModel L)) (d.lookup cs!"models")
    let p ← opt (readParams L) (d.lookup cs!"parameters")
    let t ← opt readStr (d.lookup cs!"dtype")
    let b ← opt readStr (d.lookup cs!"base_model")
    .ok ⟨g, ms, p, t, b⟩
  | _ => .error .validation

/-- Parameters as `evaluate_setting` meets them.  [scripts/merge_raw_pytorch.py:171-207] -/
def rawParams (p : Params K) : Config.Params K := p.map (fun e => (e.1, e.2.toConfig))

/-- What the planning looks at.  [scripts/merge_raw_pytorch.py:75-166] -/
def RawConf.toRaw (c : RawConf K) : Raw.Config K :=
  ⟨c.models.map (fun m => ⟨m.1, m.2.map rawParams⟩), c.parameters.map rawParams, c.base⟩

end Verif.Document

namespace Verif.Main

open Verif.ModelRef (Str Ref)
open Verif.WholeMerge (Chance Method getMethod)
open Verif.Tensor (Tensor)
open Verif.Config (Scalar)

/-- What surrounds a run: files with text, the YAML library, the conversions of the validation library, the random choices, data types, files with tensors (`none`: there is no such file), and the order in
which the elements of a set happen to be listed.  [scripts/merge_raw_pytorch.py:75-99, 243-259] -/
structure RawWorld where
  file : Str → Option Str
  yaml : Str → Option (Document.Doc ℝ)
  lib : Document.Lib ℝ
  chance : Chance
  casts : LoadTask.Casts (Tensor ℝ)
  disk : Str → Option (Raw.File (Tensor ℝ))
  listing : List Str → List Str

/-- How the command can end otherwise.  [scripts/merge_raw_pytorch.py:82-129, 236-259; io/lazy_tensor_loader.py:81-83] -/
inductive RawErr where
  | usage (e : CommandLine.Err)
  | noFile
  | syntax
  | config (e : Document.Err)
  | noMethod
  | noModel
  | run (e : Raw.Err)

/-- `ModelReference.model_validate({"model": {"path": k}})`, merge_raw_pytorch.py:132, 153, 190. -/
def rawRef (path : Str) : Ref := ⟨⟨path, none⟩, none, none⟩

/-- `tensor_params[mr] = tensor_params.get(mr, {})` and `tensor_params[mr][param_def.name] = value`, merge_raw_pytorch.py:191-206. -/
def putParam (d : List (Ref × List (Str × Option (Scalar ℝ)))) (e : (Str × Str) × Option (Scalar ℝ)) : List (Ref × List (Str × Option (Scalar ℝ))) :=
  LoadTask.resultSet d (rawRef e.1.1) (LoadTask.dictSet ((WholeMerge.lookup d (rawRef e.1.1)).getD []) e.1.2 e.2)

/-- `tensor_params`, merge_raw_pytorch.py:187-207. -/
def nested (t : List ((Str × Str) × Option (Scalar ℝ))) : List (Ref × List (Str × Option (Scalar ℝ))) := t.foldl putParam []

/-- `if dt := dtype_from_name(self.dtype): tensor = tensor.to(dtype=dt)` for all the tensors loaded, merge_raw_pytorch.py:70-72. -/
def castAll (casts : LoadTask.Casts (Tensor ℝ)) (dtype : Option String) : List (Ref × Tensor ℝ) → Except LoadTask.Err (List (Ref × Tensor ℝ))
  | [] => .ok []
  | e :: es =>
    match LoadTask.toDtype casts dtype e.2 with
    | .error x => .error x
    | .ok t =>
      match castAll casts dtype es with
      | .error x => .error x
      | .ok ts => .ok ((e.1, t) :: ts)

/-- What `make_task` is given, merge_raw_pytorch.py:140-156.  (The tensors are handed over separately; no method looks at `inputs`.) -/
def rawPlanned (c : Document.RawConf ℝ) (j : Raw.Job ℝ) : Plan.Planned ℝ where
  weight := { name := j.tensor }
  inputs := []
  params := j.params
  tensorParams := nested j.tensorParams
  baseModel := c.base.map rawRef

/-- The tasks of one tensor after the loading: conversion, the method, and `SaveTensor`, merge_raw_pytorch.py:70-72, 140-163; io/tasks.py:227-234. -/
noncomputable def rawTask (casts : LoadTask.Casts (Tensor ℝ)) (m : Method) (c : Document.RawConf ℝ) (j : Raw.Job ℝ) (xs : List (Ref × Tensor ℝ)) : Except Raw.Err (Tensor ℝ) :=
  match castAll casts (c.dtype.map String.ofList) xs with
  | .error _ => .error .method
  | .ok ts =>
    match m.task (rawPlanned c j) ts with
    | .error _ => .error .method
    | .ok y =>
      match LoadTask.saveExecute casts (String.ofList j.tensor) false (c.dtype.map String.ofList) y with
      | .ok (some e) => .ok e.2
      | _ => .error .method

/-- The parameters of a method as `construct_param_dicts` meets them.  [merge_methods/base.py:38-41; scripts/merge_raw_pytorch.py:173-207] -/
def rawDefs (l : List (Plan.ParamDef ℝ)) : List (Raw.ParamDef ℝ) := l.map (fun d => ⟨d.name, d.required, d.default⟩)

/-- A file with tensors; a missing one is noticed before its tensors are asked for.  [io/lazy_tensor_loader.py:81-103] -/
def RawWorld.tensors (W : RawWorld) (p : Str) : Raw.File (Tensor ℝ) := (W.disk p).getD []

/-- `plan_flat_merge` and the executor, merge_raw_pytorch.py:75-166, 248-259, for a document: the tensors handed to the writer.  The loader of the base model is first asked for in the loop over the names. -/
noncomputable def rawMerge (W : RawWorld) (c : Document.RawConf ℝ) (union inter : Bool) : Except RawErr (List (Str × Tensor ℝ)) :=
  match getMethod W.chance c.method with
  | none => .error .noMethod
  | some m =>
    if c.models.any (fun x => (W.disk x.1).isNone) then .error .noModel
    else
      let order := W.listing (c.models.flatMap (fun x => Raw.names (W.tensors x.1)))
      if decide (order ≠ []) && c.base.any (fun b => (W.disk b).isNone) then .error .noModel
      else
        match Raw.run W.tensors c.toRaw (rawDefs m.params) (rawDefs m.tensorParams) union inter order (rawTask W.casts m c) with
        | .error e => .error (.run e)
        | .ok out => .ok out

/-- `main`, merge_raw_pytorch.py:230-259: the directory written to and the tensors handed to the writer. -/
noncomputable def rawMain (W : RawWorld) (line : List Str) : Except RawErr (Str × List (Str × Tensor ℝ)) :=
  match CommandLine.call CommandLine.pytorch line with
  | .error e => .error (.usage e)
  | .ok k =>
    match W.file (argument k cs!"config_path") with
    | none => .error .noFile
    | some text =>
      match W.yaml text with
      | none => .error .syntax
      | some d =>
        match Document.readRaw W.lib d with
        | .error e => .error (.config e)
        | .ok c =>
          match rawMerge W c (flagOf k cs!"tensor_union" false) (flagOf k cs!"tensor_intersection" false) with
          | .error e => .error e
          | .ok out => .ok (argument k cs!"out_path", out)

end Verif.Main
