import Verif.Model.Config
import Verif.Model.ModelRef
import Verif.Model.Chars

/-! # Configurations as documents (`/repo/mergekit/config.py`, `common.py:61-226`, `tokenizer/config.py`)

What `MergeConfiguration.model_validate(yaml.safe_load(...))` makes of a file, and what `to_yaml` writes.  The conversions of pydantic (a library) are
described for the types that occur: conversions of strings to numbers are parameters, and for alternatives the one with more fields set is taken, the first of several. -/

namespace Verif.Document

open Verif.ModelRef (Str ModelPath Ref Serialized)

/-- A document as read from YAML.  (Keys that are not strings cannot be fields and are not represented.)  [config.py:145-149] -/
inductive Doc (K : Type) where
  | null
  | bool (b : Bool)
  | int (i : Int)
  | float (x : K)
  | str (s : Str)
  | list (l : List (Doc K))
  | dict (d : List (Str × Doc K))

/-- How reading fails: pydantic's `ValidationError`, or a `RuntimeError` of one of the validators, which pydantic lets through.  [config.py:78-82, 123-143;
common.py:65-76, 193-202] -/
inductive Err where
  | validation
  | runtime
deriving DecidableEq

/-- Reading.  Of several errors the first is given here (pydantic lists all errors of validation).  [config.py:55-143] -/
abbrev R := Except Err

/-- pydantic's conversions between numbers and of strings to numbers.  [config.py:13-21, 55-70] -/
structure Lib (K : Type) where
  ofInt : Int → K
  toInt : K → Option Int
  strFloat : Str → Option K
  strInt : Str → Option Int
  strBool : Str → Option Bool

section
variable {K : Type}

/-- A result or the error of validation.  [config.py:13-21] -/
def orInvalid {A : Type} : Option A → R A
  | some a => .ok a
  | none => .error .validation

/-- A `float`.  [config.py:13-21] -/
def readFloat (L : Lib K) : Doc K → R K
  | .float x => .ok x
  | .int i => .ok (L.ofInt i)
  | .bool b => .ok (L.ofInt (if b then 1 else 0))
  | .str s => orInvalid (L.strFloat s)
  | _ => .error .validation

/-- An `int`.  [config.py:57; tokenizer/config.py:16, 43] -/
def readInt (L : Lib K) : Doc K → R Int
  | .int i => .ok i
  | .float x => orInvalid (L.toInt x)
  | .bool b => .ok (if b then 1 else 0)
  | .str s => orInvalid (L.strInt s)
  | _ => .error .validation

/-- A `bool`.  [tokenizer/config.py:36] -/
def readBool (L : Lib K) : Doc K → R Bool
  | .bool b => .ok b
  | .int i => if i = 0 then .ok false else if i = 1 then .ok true else .error .validation
  | .float x => match L.toInt x with
    | some 0 => .ok false
    | some 1 => .ok true
    | _ => .error .validation
  | .str s => orInvalid (L.strBool s)
  | _ => .error .validation

/-- A `str`.  [config.py:88-98] -/
def readStr : Doc K → R Str
  | .str s => .ok s
  | _ => .error .validation

/-- An `Optional` field with the default `None`.  [config.py:55-99] -/
def opt {A : Type} (f : Doc K → R A) : Option (Doc K) → R (Option A)
  | none => .ok none
  | some .null => .ok none
  | some d => (f d).map some

/-- A field without default.  [config.py:55-99] -/
def req {A : Type} (f : Doc K → R A) : Option (Doc K) → R A
  | none => .error .validation
  | some d => f d

/-- All of them.  [config.py:67, 74-75, 86-88] -/
def each {A B : Type} (f : A → R B) : List A → R (List B)
  | [] => .ok []
  | a :: as =>
    match f a with
    | .error e => .error e
    | .ok b =>
      match each f as with
      | .error e => .error e
      | .ok bs => .ok (b :: bs)

/-- A `List[...]`.  [config.py:67, 74-75, 86-88] -/
def readList {A : Type} (f : Doc K → R A) : Doc K → R (List A)
  | .list l => each f l
  | _ => .error .validation

/-- A `Dict[str, ...]`.  [config.py:58, 63, 70, 76, 86, 99; tokenizer/config.py:42] -/
def readDict {A : Type} (f : Doc K → R A) : Doc K → R (List (Str × A))
  | .dict d => each (fun e => (f e.2).map (fun a => (e.1, a))) d
  | _ => .error .validation

/-! ## References -/

/-- What `validate_string` raises.  [common.py:65-76, 193-202] -/
def orRuntime {A E : Type} : Except E A → R A
  | .ok a => .ok a
  | .error _ => .error .runtime

/-- `ModelPath`, common.py:61-76. -/
def readPath : Doc K → R ModelPath
  | .str s => orRuntime (ModelRef.parsePath s)
  | .dict d => do
    let p ← req readStr (d.lookup cs!"path")
    let r ← opt readStr (d.lookup cs!"revision")
    .ok ⟨p, r⟩
  | _ => .error .validation

/-- `ModelReference`, common.py:91-97, 193-202. -/
def readRef : Doc K → R Ref
  | .str s => orRuntime (ModelRef.parse s)
  | .dict d => do
    let m ← req readPath (d.lookup cs!"model")
    let l ← opt readPath (d.lookup cs!"lora")
    let o ← opt readStr (d.lookup cs!"override_architecture")
    .ok ⟨m, l, o⟩
  | _ => .error .validation

/-! ## Settings -/

/-- `ScalarOrGradient`, config.py:13. -/
inductive Num (K : Type) where
  | one (x : K)
  | many (l : List K)

/-- `ConditionalParameter`, config.py:16-18. -/
structure Cond (K : Type) where
  value : Num K
  filter : Option Str := none

/-- `ParameterSetting`, config.py:21-23. -/
inductive Setting (K : Type) where
  | num (n : Num K)
  | cond (c : Cond K)
  | conds (l : List (Cond K))

/-- Reading numbers, config.py:13. -/
def readNum (L : Lib K) : Doc K → R (Num K)
  | .list l => (each (readFloat L) l).map .many
  | d => (readFloat L d).map .one

/-- Reading a conditional value, config.py:16-18. -/
def readCond (L : Lib K) : Doc K → R (Cond K)
  | .dict d => do
    let v ← req (readNum L) (d.lookup cs!"value")
    let f ← opt readStr (d.lookup cs!"filter")
    .ok ⟨v, f⟩
  | _ => .error .validation

/-- Reading a setting, config.py:21-23: dictionaries are conditional values, lists all conditional values or all numbers (the empty list is read as the former). -/
def readSetting (L : Lib K) : Doc K → R (Setting K)
  | .dict d => (readCond L (.dict d)).map .cond
  | .list l =>
    match each (readCond L) l with
    | .ok cs => .ok (.conds cs)
    | .error _ => (each (readFloat L) l).map (fun ns => .num (.many ns))
  | d => (readFloat L d).map (fun x => .num (.one x))

/-- `Dict[str, ParameterSetting]`.  [config.py:58, 63, 70, 76, 99] -/
abbrev Params (K : Type) := List (Str × Setting K)

/-! ## The parts of a configuration -/

/-- `InputSliceDefinition`, config.py:55-58. -/
structure InSlice (K : Type) where
  model : Ref
  start : Int
  stop : Int
  parameters : Option (Params K) := none

/-- `InputModelDefinition`, config.py:61-63. -/
structure InModel (K : Type) where
  model : Ref
  parameters : Option (Params K) := none

/-- `OutputSliceDefinition`, config.py:66-70. -/
structure OutSlice (K : Type) where
  sources : List (InSlice K)
  baseModel : Option Ref := none
  residualWeight : Option K := none
  parameters : Option (Params K) := none

/-- `OutputModuleDefinition`, config.py:73-76. -/
structure OutModule (K : Type) where
  slices : Option (List (OutSlice K)) := none
  models : Option (List (InModel K)) := none
  parameters : Option (Params K) := none

/-- `Union[ModelTokenEmbedding, ZeroEmbedding, ModelReference]`, tokenizer/config.py:13-36. -/
inductive TokenSource where
  | modelToken (model : Ref) (tokenId : Option Int) (token : Option Str)
  | zero
  | ref (r : Ref)
deriving DecidableEq

/-- `TokenEmbeddingConfig`, tokenizer/config.py:34-36. -/
structure TokenConf where
  source : Option TokenSource := none
  force : Bool := false
deriving DecidableEq

/-- `Union[ModelReference, Literal["union"], Literal["base"]]`, tokenizer/config.py:40; config.py:93. -/
inductive VocabSource where
  | union
  | base
  | ref (r : Ref)
deriving DecidableEq

/-- `TokenizerConfig`, tokenizer/config.py:39-42. -/
structure TokenizerConf where
  source : VocabSource := .union
  tokens : Option (List (Str × TokenConf)) := none
  pad : Option Int := none
deriving DecidableEq

/-- `MergeConfiguration`, config.py:85-99. -/
structure Conf (K : Type) where
  modules : Option (List (Str × OutModule K)) := none
  slices : Option (List (OutSlice K)) := none
  models : Option (List (InModel K)) := none
  mergeMethod : Str
  baseModel : Option Ref := none
  dtype : Option Str := none
  tokenizerSource : Option VocabSource := none
  tokenizer : Option TokenizerConf := none
  chatTemplate : Option Str := none
  outDtype : Option Str := none
  parameters : Option (Params K) := none

/-! ## Reading them -/

/-- `layer_range: Tuple[int, int]`, config.py:57. -/
def readRange (L : Lib K) : Doc K → R (Int × Int)
  | .list [a, b] => do
    let x ← readInt L a
    let y ← readInt L b
    .ok (x, y)
  | _ => .error .validation

/-- Reading parameters.  [config.py:58, 63, 70, 76, 99] -/
def readParams (L : Lib K) : Doc K → R (Params K) := readDict (readSetting L)

/-- config.py:55-58. -/
def readInSlice (L : Lib K) : Doc K → R (InSlice K)
  | .dict d => do
    let m ← req readRef (d.lookup cs!"model")
    let r ← req (readRange L) (d.lookup cs!"layer_range")
    let p ← opt (readParams L) (d.lookup cs!"parameters")
    .ok ⟨m, r.1, r.2, p⟩
  | _ => .error .validation

/-- config.py:61-63. -/
def readInModel (L : Lib K) : Doc K → R (InModel K)
  | .dict d => do
    let m ← req readRef (d.lookup cs!"model")
    let p ← opt (readParams L) (d.lookup cs!"parameters")
    .ok ⟨m, p⟩
  | _ => .error .validation

/-- config.py:66-70. -/
def readOutSlice (L : Lib K) : Doc K → R (OutSlice K)
  | .dict d => do
    let s ← req (readList (readInSlice L)) (d.lookup cs!"sources")
    let b ← opt readRef (d.lookup cs!"base_model")
    let w ← opt (readFloat L) (d.lookup cs!"residual_weight")
    let p ← opt (readParams L) (d.lookup cs!"parameters")
    .ok ⟨s, b, w, p⟩
  | _ => .error .validation

/-- Truthiness of an optional list.  [config.py:78-82, 123-143] -/
def given {A : Type} : Option (List A) → Bool
  | none => false
  | some l => !l.isEmpty

/-- config.py:73-82. -/
def readOutModule (L : Lib K) : Doc K → R (OutModule K)
  | .dict d => do
    let s ← opt (readList (readOutSlice L)) (d.lookup cs!"slices")
    let m ← opt (readList (readInModel L)) (d.lookup cs!"models")
    let p ← opt (readParams L) (d.lookup cs!"parameters")
    if given s == given m then .error .runtime else .ok ⟨s, m, p⟩
  | _ => .error .validation

/-- `ModelTokenEmbedding`, tokenizer/config.py:13-26. -/
def readModelToken (L : Lib K) (d : List (Str × Doc K)) : R TokenSource := do
  let k ← req readStr (d.lookup cs!"kind")
  let m ← req readRef (d.lookup cs!"model")
  let i ← opt (readInt L) (d.lookup cs!"token_id")
  let t ← opt readStr (d.lookup cs!"token")
  if k = cs!"model_token" ∧ i.isSome ≠ t.isSome then .ok (.modelToken m i t) else .error .validation

/-- `ZeroEmbedding`, tokenizer/config.py:29-30. -/
def readZero (d : List (Str × Doc K)) : R TokenSource := do
  let k ← req readStr (d.lookup cs!"kind")
  if k = cs!"zero" then .ok .zero else .error .validation

/-- The number of fields of a reference that are set.  [tokenizer/config.py:35] -/
def refFields (d : List (Str × Doc K)) : Nat :=
  ([cs!"model", cs!"lora", cs!"override_architecture"].filter (fun k => (d.lookup k).isSome)).length

/-- `source`, tokenizer/config.py:35. -/
def readTokenSource (L : Lib K) : Doc K → R TokenSource
  | .dict d =>
    match readModelToken L d with
    | .ok t => .ok t
    | .error .runtime => .error .runtime
    | .error .validation =>
      match readZero d, readRef (.dict d) with
      | _, .error .runtime => .error .runtime
      | .ok z, .error .validation => .ok z
      | .ok z, .ok r => if 1 < refFields d then .ok (.ref r) else .ok z
      | .error _, .ok r => .ok (.ref r)
      | .error _, .error .validation => .error .validation
  | d => (readRef d).map .ref

/-- A field with a default.  [tokenizer/config.py:36, 40] -/
def deflt {A : Type} (a : A) (f : Doc K → R A) : Option (Doc K) → R A
  | none => .ok a
  | some d => f d

/-- tokenizer/config.py:34-36. -/
def readTokenConf (L : Lib K) : Doc K → R TokenConf
  | .dict d => do
    let s ← opt (readTokenSource L) (d.lookup cs!"source")
    let f ← deflt false (readBool L) (d.lookup cs!"force")
    .ok ⟨s, f⟩
  | _ => .error .validation

/-- The literals before references.  [config.py:93; tokenizer/config.py:40] -/
def readVocabSource (d : Doc K) : R VocabSource :=
  match d with
  | .str s => if s = cs!"union" then .ok .union else if s = cs!"base" then .ok .base else (readRef (.str s : Doc K)).map .ref
  | d => (readRef d).map .ref

/-- tokenizer/config.py:39-42. -/
def readTokenizer (L : Lib K) : Doc K → R TokenizerConf
  | .dict d => do
    let s ← deflt .union readVocabSource (d.lookup cs!"source")
    let t ← opt (readDict (readTokenConf L)) (d.lookup cs!"tokens")
    let p ← opt (readInt L) (d.lookup cs!"pad_to_multiple_of")
    .ok ⟨s, t, p⟩
  | _ => .error .validation

/-- The validators of a configuration, config.py:123-143. -/
def check (c : Conf K) : R (Conf K) :=
  let n := (if given c.modules then 1 else 0) + (if given c.slices then 1 else 0) + (if given c.models then 1 else 0)
  if n ≠ 1 then .error .runtime
  else if c.tokenizerSource.isSome && c.tokenizer.isSome then .error .runtime
  else .ok c

/-- `MergeConfiguration.model_validate`, config.py:85-143. -/
def read (L : Lib K) : Doc K → R (Conf K)
  | .dict d => do
    let mo ← opt (readDict (readOutModule L)) (d.lookup cs!"modules")
    let sl ← opt (readList (readOutSlice L)) (d.lookup cs!"slices")
    let ms ← opt (readList (readInModel L)) (d.lookup cs!"models")
    let mm ← req readStr (d.lookup cs!"merge_method")
    let bm ← opt readRef (d.lookup cs!"base_model")
    let dt ← opt readStr (d.lookup cs!"dtype")
    let ts ← opt readVocabSource (d.lookup cs!"tokenizer_source")
    let tk ← opt (readTokenizer L) (d.lookup cs!"tokenizer")
    let ct ← opt readStr (d.lookup cs!"chat_template")
    let od ← opt readStr (d.lookup cs!"out_dtype")
    let pa ← opt (readParams L) (d.lookup cs!"parameters")
    check ⟨mo, sl, ms, mm, bm, dt, ts, tk, ct, od, pa⟩
  | _ => .error .validation

/-! ## Writing them -/

/-- A field that is left out if it is `None` (`exclude_defaults` or `exclude_none`).  [config.py:145-149; scripts/legacy.py:120] -/
def field {A : Type} (k : Str) (f : A → Doc K) : Option A → List (Str × Doc K)
  | none => []
  | some a => [(k, f a)]

/-- `ModelPath`.  [common.py:61-63] -/
def dumpPath (p : ModelPath) : Doc K := .dict ((cs!"path", .str p.path) :: field cs!"revision" .str p.revision)

/-- `ModelReference.serialize`, common.py:204-215.  (`return self` is taken to write the fields.) -/
def dumpRef (r : Ref) : Doc K :=
  match r.serialize with
  | .str s => .str s
  | .fields r => .dict ([(cs!"model", dumpPath r.model), (cs!"lora", match r.lora with
      | none => .null
      | some l => dumpPath l)] ++ field cs!"override_architecture" .str r.overrideArchitecture)

/-- Numbers.  [config.py:13] -/
def dumpNum : Num K → Doc K
  | .one x => .float x
  | .many l => .list (l.map .float)

/-- config.py:16-18. -/
def dumpCond (c : Cond K) : Doc K := .dict ((cs!"value", dumpNum c.value) :: field cs!"filter" .str c.filter)

/-- config.py:21-23. -/
def dumpSetting : Setting K → Doc K
  | .num n => dumpNum n
  | .cond c => dumpCond c
  | .conds l => .list (l.map dumpCond)

/-- A dictionary.  [config.py:145-149] -/
def dumpDict {A : Type} (f : A → Doc K) (d : List (Str × A)) : Doc K := .dict (d.map (fun e => (e.1, f e.2)))

/-- A list.  [config.py:145-149] -/
def dumpList {A : Type} (f : A → Doc K) (l : List A) : Doc K := .list (l.map f)

/-- Parameters.  [config.py:58, 63, 70, 76, 99] -/
def dumpParams : Params K → Doc K := dumpDict dumpSetting

/-- config.py:55-58. -/
def dumpInSlice (s : InSlice K) : Doc K :=
  .dict ([(cs!"model", dumpRef s.model), (cs!"layer_range", .list [.int s.start, .int s.stop])] ++ field cs!"parameters" dumpParams s.parameters)

/-- config.py:61-63. -/
def dumpInModel (m : InModel K) : Doc K := .dict ((cs!"model", dumpRef m.model) :: field cs!"parameters" dumpParams m.parameters)

/-- config.py:66-70. -/
def dumpOutSlice (s : OutSlice K) : Doc K :=
  .dict ((cs!"sources", dumpList dumpInSlice s.sources) :: field cs!"base_model" dumpRef s.baseModel ++ field cs!"residual_weight" .float s.residualWeight ++
    field cs!"parameters" dumpParams s.parameters)

/-- config.py:73-76. -/
def dumpOutModule (m : OutModule K) : Doc K :=
  .dict (field cs!"slices" (dumpList dumpOutSlice) m.slices ++ field cs!"models" (dumpList dumpInModel) m.models ++ field cs!"parameters" dumpParams m.parameters)

/-- tokenizer/config.py:13-36. -/
def dumpTokenSource : TokenSource → Doc K
  | .modelToken m i t => .dict ([(cs!"kind", .str cs!"model_token"), (cs!"model", dumpRef m)] ++ field cs!"token_id" .int i ++ field cs!"token" .str t)
  | .zero => .dict [(cs!"kind", .str cs!"zero")]
  | .ref r => dumpRef r

/-- tokenizer/config.py:34-36; `full`: defaults are written, too. -/
def dumpTokenConf (full : Bool) (c : TokenConf) : Doc K :=
  .dict (field cs!"source" dumpTokenSource c.source ++ if full || c.force then [(cs!"force", .bool c.force)] else [])

/-- config.py:93; tokenizer/config.py:40. -/
def dumpVocabSource : VocabSource → Doc K
  | .union => .str cs!"union"
  | .base => .str cs!"base"
  | .ref r => dumpRef r

/-- tokenizer/config.py:39-42. -/
def dumpTokenizer (full : Bool) (c : TokenizerConf) : Doc K :=
  .dict ((if full || c.source ≠ .union then [(cs!"source", dumpVocabSource c.source)] else []) ++ field cs!"tokens" (dumpDict (dumpTokenConf full)) c.tokens ++
    field cs!"pad_to_multiple_of" .int c.pad)

/-- `model_dump(exclude_defaults=True, mode="json")` in `to_yaml`, config.py:145-149, and with `full` `model_dump(exclude_none=True, mode="json")`,
scripts/legacy.py:120, scripts/layershuffle.py:113.  (YAML itself is a library; it also sorts keys.) -/
def dump (full : Bool) (c : Conf K) : Doc K :=
  .dict (field cs!"modules" (dumpDict dumpOutModule) c.modules ++ field cs!"slices" (dumpList dumpOutSlice) c.slices ++ field cs!"models" (dumpList dumpInModel) c.models ++
    [(cs!"merge_method", .str c.mergeMethod)] ++ field cs!"base_model" dumpRef c.baseModel ++ field cs!"dtype" .str c.dtype ++
    field cs!"tokenizer_source" dumpVocabSource c.tokenizerSource ++ field cs!"tokenizer" (dumpTokenizer full) c.tokenizer ++ field cs!"chat_template" .str c.chatTemplate ++
    field cs!"out_dtype" .str c.outDtype ++ field cs!"parameters" dumpParams c.parameters)

/-! ## The configuration as the rest of the model has it -/

/-- Settings as `evaluate_setting` meets them, config.py:26-52. -/
def Num.elems : Num K → Config.Scalar K ⊕ List (Config.Scalar K)
  | .one x => .inl (.num x)
  | .many l => .inr (l.map .num)

/-- A conditional value.  [config.py:16-18] -/
def Cond.toConfig (c : Cond K) : Config.Cond K := ⟨c.value.elems, c.filter⟩

/-- A setting.  [config.py:21-23] -/
def Setting.toConfig : Setting K → Config.Setting K
  | .num (.one x) => .scalar (.num x)
  | .num (.many l) => .list (l.map (fun x => .scalar (.num x)))
  | .cond c => .cond c.toConfig
  | .conds l => .list (l.map (fun c => .cond c.toConfig))

/-- Parameters.  [config.py:99] -/
def paramsToConfig (p : Option (Params K)) : Config.Params K := (p.getD []).map (fun e => (e.1, e.2.toConfig))

/-- config.py:55-58. -/
def InSlice.toConfig (s : InSlice K) : Config.InSlice K := ⟨s.model, s.start, s.stop, paramsToConfig s.parameters⟩
/-- config.py:61-63. -/
def InModel.toConfig (m : InModel K) : Config.InModel K := ⟨m.model, paramsToConfig m.parameters⟩
/-- config.py:66-70. -/
def OutSlice.toConfig (s : OutSlice K) : Config.OutSlice K := ⟨s.sources.map InSlice.toConfig, s.baseModel, paramsToConfig s.parameters⟩
/-- config.py:73-76. -/
def OutModule.toConfig (m : OutModule K) : Config.OutModule K :=
  ⟨m.slices.map (List.map OutSlice.toConfig), m.models.map (List.map InModel.toConfig), paramsToConfig m.parameters⟩

/-- config.py:85-99. -/
def Conf.toConfig (c : Conf K) : Config.MergeConfig K :=
  { modules := c.modules.map (List.map (fun e => (String.ofList e.1, e.2.toConfig))), slices := c.slices.map (List.map OutSlice.toConfig),
    models := c.models.map (List.map InModel.toConfig), baseModel := c.baseModel, tokenizerSource := c.tokenizerSource.isSome, tokenizer := c.tokenizer.isSome,
    parameters := paramsToConfig c.parameters }

end

end Verif.Document
