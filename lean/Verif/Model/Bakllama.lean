import Verif.Model.ScriptMain

/-! # `bakllama` as a whole (`/repo/mergekit/scripts/bakllama.py`) -/

namespace Verif.Main

open Verif.ModelRef (Str)
open Verif.Document (Doc)
open Verif.WholeMerge (getMethod)

/-- The names that can be imported from `mergekit.common`: its classes and functions, and what it imports itself.  [common.py:4-32, 35-423] -/
def commonNames : List Str :=
  [cs!"binascii", cs!"logging", cs!"os", cs!"huggingface_hub", cs!"immutables", cs!"peft", cs!"torch", cs!"transformers", cs!"BaseModel", cs!"model_serializer", cs!"model_validator", cs!"core_schema",
    cs!"AutoConfig", cs!"PretrainedConfig", cs!"TypeVar", cs!"LazyTensorLoader", cs!"ShardedTensorIndex", cs!"set_config_value", cs!"get_config_value", cs!"ModelPath", cs!"ModelReference",
    cs!"dtype_from_name", cs!"parse_kmb", cs!"T_K", cs!"T_V", cs!"ImmutableMap", cs!"ARCH_NAME_TO_AUTO_CLS", cs!"AutoClassProtocol", cs!"get_auto_cls", cs!"get_torch_accelerator_module",
    cs!"get_torch_accelerator_count", cs!"get_torch_accelerator_type", cs!"Any", cs!"Callable", cs!"Dict", cs!"Generic", cs!"Iterator", cs!"Mapping", cs!"Optional", cs!"Protocol", cs!"Tuple", cs!"Union",
    cs!"get_args"]

/-- The names that `bakllama.py` imports from `mergekit.common`, bakllama.py:10. -/
def bakWanted : List Str := [cs!"MergeOptions"]

/-- How the command can end before anything is merged.  [scripts/bakllama.py:10, 43-69] -/
inductive BakErr where
  | importError
  | usage (e : CommandLine.Err)
  | noFile
  | syntax
  | document (e : Document.Err)
  | config (e : Document.Err)
  | noMethod

/-- `LayerSlice`, bakllama.py:19-23. -/
structure LayerSlice where
  model : Str
  start : Int
  stop : Int
  scale : Option ℝ

/-- `BakllamaConfig`, bakllama.py:26-29. -/
structure BakConf where
  slices : List LayerSlice
  embedding : Option Str
  head : Option Str

/-- `LayerSlice.model_validate`, bakllama.py:19-23. -/
def readLayerSlice (L : Document.Lib ℝ) : Doc ℝ → Document.R LayerSlice
  | .dict d => do
    let m ← Document.req Document.readStr (d.lookup cs!"model")
    let a ← Document.req (Document.readInt L) (d.lookup cs!"start")
    let b ← Document.req (Document.readInt L) (d.lookup cs!"end")
    let x ← Document.opt (Document.readFloat L) (d.lookup cs!"scale")
    .ok ⟨m, a, b, x⟩
  | _ => .error .validation

/-- `BakllamaConfig.model_validate`, bakllama.py:51. -/
def readBak (L : Document.Lib ℝ) : Doc ℝ → Document.R BakConf
  | .dict d => do
    let s ← Document.req (Document.readList (readLayerSlice L)) (d.lookup cs!"layer_slices")
    let e ← Document.opt Document.readStr (d.lookup cs!"embedding_source")
    let h ← Document.opt Document.readStr (d.lookup cs!"lm_head_source")
    .ok ⟨s, e, h⟩
  | _ => .error .validation

/-- `InputSliceDefinition(model=s.model, layer_range=(s.start, s.end), parameters=parameters)`, bakllama.py:54-64. -/
def bakSliceDoc (s : LayerSlice) : Doc ℝ :=
  .dict [(cs!"model", .str s.model), (cs!"layer_range", .list [.int s.start, .int s.stop]),
    (cs!"parameters", .dict (match s.scale with
      | none => []
      | some x => [(cs!"scale", .dict [(cs!"value", .float x), (cs!"filter", .str cs!"down_proj")])]))]

/-- The arguments of `MergeConfiguration(...)`, bakllama.py:66-68.  (An `InputSliceDefinition` in the place of an `OutputSliceDefinition` is an object of another class, which pydantic refuses; here it is a
dictionary without `sources`, which it refuses as well.) -/
def bakDoc (c : BakConf) (fp16 : Bool) : Doc ℝ :=
  .dict [(cs!"merge_method", .str cs!"passthrough"), (cs!"slices", .list (c.slices.map bakSliceDoc)), (cs!"dtype", orNull (if fp16 then some cs!"float16" else none))]

/-- `main`, bakllama.py:43-69, up to the beginning of the merge.  (The slices are validated one by one before the whole; here all are validated at the end, which makes a difference only to which of several
errors is reported.) -/
noncomputable def bakBody (W : World) (line : List Str) : Except BakErr Prepared :=
  match CommandLine.call CommandLine.bakllama line with
  | .error e => .error (.usage e)
  | .ok k =>
    match W.file (argument k cs!"config_path") with
    | none => .error .noFile
    | some text =>
      match W.yaml text with
      | none => .error .syntax
      | some d =>
        match readBak W.lib d with
        | .error e => .error (.document e)
        | .ok b =>
          match Document.read W.lib (bakDoc b (flagOf k cs!"fp16" false)) with
          | .error e => .error (.config e)
          | .ok c =>
            match getMethod W.chance c.mergeMethod with
            | none => .error .noMethod
            | some m => .ok { options := [(cs!"clone_tensors", some (.bool (flagOf k cs!"clone_tensors" false)))], out := argument k cs!"out_path", text := [], conf := c, method := m }

/-- The command: the imports, bakllama.py:10, and `main`. -/
noncomputable def bakMain (W : World) (line : List Str) : Except BakErr Prepared :=
  if bakWanted.all (fun n => decide (n ∈ commonNames)) then bakBody W line else .error .importError

end Verif.Main
