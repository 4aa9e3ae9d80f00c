import Verif.Model.ModelRef

/-! # Loading, gathering and saving tensors (`/repo/mergekit/io/tasks.py:72-271`) -/

namespace Verif.LoadTask

open Verif.ModelRef (Str Ref)

/-- The data types `dtype_from_name` knows, common.py:228-243. -/
inductive DType where
  | bfloat16 | float16 | float32 | int64
  /-- any other type a stored tensor may have -/
  | other (name : String)
deriving DecidableEq

/-- How a task may fail.  [io/tasks.py:110-126, 227-234; common.py:228-243] -/
inductive Err where
  /-- "Tensor ... required but not present in model ...", tasks.py:118-120 -/
  | required (tensor : String)
  /-- "Unimplemented dtype", common.py:243 -/
  | badDtype
  /-- "No value for required tensor ...", tasks.py:230 -/
  | noValue (tensor : String)
  /-- anything raised while reading a file -/
  | read
deriving DecidableEq

/-- `name[len("torch."):]` if it starts with that, common.py:232-233. -/
def dropTorch (s : List Char) : List Char :=
  if "torch.".toList <+: s then s.drop 6 else s

/-- `dtype_from_name` of a non-empty name, common.py:228-243. -/
def dtypeFromName (name : String) : Except Err DType :=
  let n := dropTorch name.toList
  if n = "bfloat16".toList then .ok .bfloat16
  else if n = "float16".toList then .ok .float16
  else if n = "float32".toList then .ok .float32
  else if n = "int64".toList then .ok .int64
  else .error .badDtype

/-- What the loader of a model offers: the names in its index, how a named tensor is read, and what
`convert_checkpoint_tensors` makes of the stored tensors for a target name (`none` if it cannot).  Devices are not modelled.  [io/tasks.py:85-116] -/
structure Loader (T : Type) where
  names : List String
  fetch : String → Except Err T
  convert : String → Except Err (Option T)

/-- Tensors' data types: `x.dtype` and `x.to(dtype=...)`.  [io/tasks.py:124-125, 232-233] -/
structure Casts (T : Type) where
  dtypeOf : T → DType
  cast : DType → T → T

/-- `LoadTensor` fields used here, tasks.py:72-81 (absent alias lists are empty lists). -/
structure LoadTensor where
  tensor : String
  dtype : Option String := none
  optional : Bool := false
  aliases : List String := []
  tiedNames : List String := []
deriving DecidableEq

/-- `_resolve_name`, tasks.py:85-92. -/
def LoadTensor.resolve {T : Type} (t : LoadTensor) (l : Loader T) : Option String :=
  ([t.tensor] ++ t.aliases ++ t.tiedNames).find? (fun n => decide (n ∈ l.names))

/-- The loop of `_load_converted_tensor`, tasks.py:104-108. -/
def convertFirst {T : Type} (l : Loader T) : List String → Except Err (Option T)
  | [] => .ok none
  | n :: ns =>
    match l.convert n with
    | .error e => .error e
    | .ok (some x) => .ok (some x)
    | .ok none => convertFirst l ns

/-- tasks.py:111-116: the tensor before data type conversion.  (`if name:` - an empty name counts as not found.) -/
def LoadTensor.raw {T : Type} (t : LoadTensor) (l : Loader T) : Except Err (Option T) :=
  match t.resolve l with
  | some n =>
    if n = "" then convertFirst l ([t.tensor] ++ t.aliases)
    else match l.fetch n with
      | .ok x => .ok (some x)
      | .error e => .error e
  | none => convertFirst l ([t.tensor] ++ t.aliases)

/-- tasks.py:124-125, 268-270: convert unless already of that type; an empty or absent type name means no conversion. -/
def toDtype {T : Type} (c : Casts T) (dtype : Option String) (x : T) : Except Err T :=
  match dtype with
  | none => .ok x
  | some n =>
    if n = "" then .ok x
    else match dtypeFromName n with
      | .error e => .error e
      | .ok d => .ok (if d = c.dtypeOf x then x else c.cast d x)

/-- `LoadTensor.execute`, tasks.py:110-126. -/
def LoadTensor.execute {T : Type} (c : Casts T) (t : LoadTensor) (l : Loader T) : Except Err (Option T) :=
  match t.raw l with
  | .error e => .error e
  | .ok none => if t.optional then .ok none else .error (.required t.tensor)
  | .ok (some x) =>
    match toDtype c t.dtype x with
    | .error e => .error e
    | .ok y => .ok (some y)

/-! ## Gathering -/

/-- `WeightInfo`, architecture/base.py:30-35 (an absent list of names is the empty list). -/
structure WeightInfo where
  name : Str
  optional : Bool := false
  aliases : List String := []
  tiedNames : List String := []
  forceDtype : Option String := none
  isEmbed : Bool := false
deriving DecidableEq

/-- `f"{str(model)}:{wi.name}"`, tasks.py:151, 171. -/
def key (m : Ref) (wi : WeightInfo) : Str := m.print ++ ':' :: wi.name

/-- Assigning into a python `dict`: an existing key keeps its place.  [io/tasks.py:150-161, 170-172] -/
def dictSet {V : Type} (d : List (Str × V)) (k : Str) (v : V) : List (Str × V) :=
  if (d.map Prod.fst).contains k then d.map (fun e => if e.1 = k then (k, v) else e) else d ++ [(k, v)]

/-- A dict comprehension.  [io/tasks.py:150-161, 170-172] -/
def dictOf {V : Type} (es : List (Str × V)) : List (Str × V) := es.foldl (fun d e => dictSet d e.1 e.2) []

/-- `d[k]`.  [io/tasks.py:173-175] -/
def dictGet {V : Type} (d : List (Str × V)) (k : Str) : Option V := (d.find? (fun e => decide (e.1 = k))).map Prod.snd

/-- The load a pair asks for, tasks.py:151-159 (`wi.force_dtype or self.dtype`: an empty string is falsy). -/
def loadOf (dtype : Option String) (wi : WeightInfo) : LoadTensor :=
  { tensor := String.ofList wi.name
    dtype := match wi.forceDtype with
      | some d => if d = "" then dtype else some d
      | none => dtype
    optional := wi.optional, aliases := wi.aliases, tiedNames := wi.tiedNames }

/-- `GatherTensors.arguments`, tasks.py:149-161: which load is done under which key. -/
def gatherArguments (dtype : Option String) (ws : List (Ref × WeightInfo)) : List (Str × (Ref × LoadTensor)) :=
  dictOf (ws.map (fun e => (key e.1 e.2, (e.1, loadOf dtype e.2))))

/-- Assigning into the resulting dictionary, keyed by model.  [io/tasks.py:173-175] -/
def resultSet {T : Type} (d : List (Ref × T)) (k : Ref) (v : T) : List (Ref × T) :=
  if (d.map Prod.fst).contains k then d.map (fun e => if e.1 = k then (k, v) else e) else d ++ [(k, v)]

/-- One step of the comprehension, tasks.py:173-175. -/
def gatherStep {T : Type} (kwargs : List (Str × Option T)) (d : List (Ref × T)) (e : Str × Ref) : List (Ref × T) :=
  match dictGet kwargs e.1 with
  | some (some x) => resultSet d e.2 x
  | _ => d

/-- `GatherTensors.execute`, tasks.py:169-175, on the values `kwargs` of the arguments. -/
def gatherExecute {T : Type} (ws : List (Ref × WeightInfo)) (kwargs : List (Str × Option T)) : List (Ref × T) :=
  (dictOf (ws.map (fun e => (key e.1 e.2, e.1)))).foldl (gatherStep kwargs) []

/-- The arguments evaluated one after the other (what the executor passes to `execute`).  [graph.py:473-484] -/
def evalArguments {T : Type} (c : Casts T) (loaders : Ref → Loader T) :
    List (Str × (Ref × LoadTensor)) → Except Err (List (Str × Option T))
  | [] => .ok []
  | (k, (m, t)) :: rest =>
    match t.execute c (loaders m) with
    | .error e => .error e
    | .ok v =>
      match evalArguments c loaders rest with
      | .error e => .error e
      | .ok vs => .ok ((k, v) :: vs)

/-- A `GatherTensors` task run by an executor.  [io/tasks.py:149-175] -/
def gather {T : Type} (c : Casts T) (loaders : Ref → Loader T) (dtype : Option String)
    (ws : List (Ref × WeightInfo)) : Except Err (List (Ref × T)) :=
  match evalArguments c loaders (gatherArguments dtype ws) with
  | .error e => .error e
  | .ok kwargs => .ok (gatherExecute ws kwargs)

/-! ## Saving -/

/-- `SaveTensor.execute` up to the call of the writer, tasks.py:227-234: what is handed to `save_tensor`, if anything.
(Here the conversion is unconditional; converting to the type a tensor already has returns it unchanged.) -/
def saveExecute {T : Type} (c : Casts T) (name : String) (optional : Bool) (dtype : Option String) (x : Option T) :
    Except Err (Option (String × T)) :=
  match x with
  | none => if optional then .ok none else .error (.noValue name)
  | some x =>
    match dtype with
    | none => .ok (some (name, x))
    | some n =>
      if n = "" then .ok (some (name, x))
      else match dtypeFromName n with
        | .error e => .error e
        | .ok d => .ok (some (name, c.cast d x))

end Verif.LoadTask
