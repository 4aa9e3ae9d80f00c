import Mathlib.Tactic.Common
import Mathlib.Logic.Relation
import Mathlib.Logic.Function.Basic

/-! # Writing and reading checkpoints (`/repo/mergekit/io/tensor_writer.py`, `lazy_tensor_loader.py`)

`T` is the type of tensors, `size : T → Nat` the number of bytes (tensor_writer.py:73).  A directory is a map from file
names to contents.  Serialization is idealised: a written shard file contains exactly the dict that was passed to
`save_file` / `torch.save`; a write that was cut off by a crash leaves a `torn` file no reader can parse. -/

namespace Verif.Writer

/-! ## Python dicts -/

/-- `d[k] = v`: overwrite in place or append.  [io/tensor_writer.py:67-121] -/
def dictSet {α β : Type} [DecidableEq α] (d : List (α × β)) (k : α) (v : β) : List (α × β) :=
  if (d.map Prod.fst).contains k then d.map (fun e => if e.1 = k then (k, v) else e) else d ++ [(k, v)]

/-- `d.get(k)`.  [io/tensor_writer.py:133-187] -/
def dictGet {α β : Type} [DecidableEq α] (d : List (α × β)) (k : α) : Option β :=
  (d.find? (fun e => decide (e.1 = k))).map Prod.snd

/-! ## Files -/

/-- Contents of a file.  [io/tensor_writer.py:123-187] -/
inductive Content (T : Type) where
  /-- a shard (safetensors or pickle): a dict of tensors -/
  | shard (entries : List (String × T))
  /-- an index file: `metadata.total_size` and `weight_map` -/
  | index (totalSize : Nat) (weightMap : List (String × String))
  /-- an incomplete file -/
  | torn

/-- A directory.  [io/tensor_writer.py:33-59] -/
abbrev FS (T : Type) := String → Option (Content T)

/-- File-system operations of the writer.  [io/tensor_writer.py:123-187] -/
inductive Op (T : Type) where
  | write (name : String) (c : Content T)
  | rename (old new : String)

/-- `os.rename` of a missing file raises `FileNotFoundError`; an existing destination is replaced.  [io/tensor_writer.py:133-187] -/
def applyOp {T : Type} (fs : FS T) : Op T → Option (FS T)
  | .write n c => some (Function.update fs n (some c))
  | .rename a b =>
    match fs a with
    | none => none
    | some c => some (Function.update (Function.update fs a none) b (some c))

/-- A sequence of operations; stops with `none` if one raises.  [io/tensor_writer.py:123-187] -/
def applyOps {T : Type} (fs : FS T) : List (Op T) → Option (FS T)
  | [] => some fs
  | o :: os => (applyOp fs o).bind (fun fs' => applyOps fs' os)

/-! ## The writer -/

/-- Constructor arguments of `TensorWriter` (tensor_writer.py:33-41) that matter here. -/
structure Conf where
  maxShardSize : Int
  safeSerialization : Bool
  overrideBasename : Option String

/-- First component of `_get_name_components`, tensor_writer.py:189-193 (an empty override is falsy). -/
def Conf.pre (c : Conf) : String :=
  match c.overrideBasename with
  | some b => if b = "" then (if c.safeSerialization then "model" else "pytorch_model") else b
  | none => if c.safeSerialization then "model" else "pytorch_model"

/-- Second component, tensor_writer.py:195. -/
def Conf.ext (c : Conf) : String := if c.safeSerialization then "safetensors" else "bin"

/-- `f"{prefix}-{shard_index + 1}.{extension}"`, tensor_writer.py:103, 156, 159. -/
def tmpName (pre ext : String) (i : Nat) : String :=
  pre ++ "-" ++ Nat.repr (i + 1) ++ "." ++ ext

/-- `f"{n:05d}"`. -/
def pad5 (n : Nat) : String :=
  String.ofList (List.replicate (5 - (Nat.repr n).length) '0') ++ Nat.repr n

/-- `f"{prefix}-{idx + 1:05d}-of-{total_shards:05d}.{extension}"`, tensor_writer.py:160-162. -/
def finalName (pre ext : String) (i total : Nat) : String :=
  pre ++ "-" ++ pad5 (i + 1) ++ "-of-" ++ pad5 total ++ "." ++ ext

/-- `f"{prefix}.{extension}"`, tensor_writer.py:156. -/
def singleName (pre ext : String) : String := pre ++ "." ++ ext

/-- `f"{prefix}.{extension}.index.json"`, tensor_writer.py:177. -/
def indexName (pre ext : String) : String := pre ++ "." ++ ext ++ ".index.json"

/-- The attributes set in tensor_writer.py:50-54. -/
structure Writer (T : Type) where
  shardsWritten : Nat := 0
  weightMap : List (String × String) := []
  current : List (String × T) := []
  currentSize : Nat := 0
  totalSize : Nat := 0

/-- What the writer does to the outside: dispatch a shard write (tensor_writer.py:108-121; performed at once without
`use_async`, by the thread pool otherwise), wait for all dispatched writes (137-146), or operate on files. -/
inductive Action (T : Type) where
  | dispatch (name : String) (c : Content T)
  | join
  | op (o : Op T)

variable {T : Type}

/-- `_flush_current_shard`, tensor_writer.py:85-121. -/
def flush (c : Conf) (w : Writer T) : Writer T × List (Action T) :=
  if w.current.isEmpty then (w, [])
  else
    let name := tmpName c.pre c.ext w.shardsWritten
    ({ shardsWritten := w.shardsWritten + 1
       weightMap := w.current.foldl (fun m e => dictSet m e.1 name) w.weightMap
       current := []
       currentSize := 0
       totalSize := w.totalSize + w.currentSize },
     [.dispatch name (.shard w.current)])

/-- `save_tensor`, tensor_writer.py:67-83. -/
def saveTensor (c : Conf) (size : T → Nat) (w : Writer T) (name : String) (t : T) :
    Writer T × List (Action T) :=
  let (w', acts) :=
    if w.current.isEmpty = false ∧ c.maxShardSize > 0 ∧
        ((w.currentSize + size t : Nat) : Int) > c.maxShardSize then flush c w
    else (w, [])
  ({ w' with current := dictSet w'.current name t, currentSize := w'.currentSize + size t }, acts)

/-- A sequence of `save_tensor` calls.  [io/tensor_writer.py:67-83] -/
def saveAll (c : Conf) (size : T → Nat) : Writer T → List (String × T) → Writer T × List (Action T)
  | w, [] => (w, [])
  | w, e :: es =>
    let r := saveTensor c size w e.1 e.2
    let r' := saveAll c size r.1 es
    (r'.1, r.2 ++ r'.2)

/-- `name_remap`, tensor_writer.py:153-163. -/
def nameRemap (c : Conf) (total : Nat) : List (String × String) :=
  if total = 1 then [(tmpName c.pre c.ext 0, singleName c.pre c.ext)]
  else (List.range total).map (fun i => (tmpName c.pre c.ext i, finalName c.pre c.ext i total))

/-- `finalize`, tensor_writer.py:133-187. -/
def finalize (c : Conf) (w : Writer T) : Writer T × List (Action T) :=
  let (w, acts) := flush c w
  let remap := nameRemap c w.shardsWritten
  let renames := remap.map (fun e => Action.op (.rename e.1 e.2))
  if w.shardsWritten > 1 then
    let wm := w.weightMap.map (fun e => (e.1, (dictGet remap e.2).getD e.2))
    ({ w with weightMap := wm },
      acts ++ [.join] ++ renames ++ [.op (.write (indexName c.pre c.ext) (.index w.totalSize wm))])
  else (w, acts ++ [.join] ++ renames)

/-- Everything the writer does for a sequence of saves followed by `finalize`.  [io/tensor_writer.py:67-187] -/
def session (c : Conf) (size : T → Nat) (saves : List (String × T)) : List (Action T) :=
  let r := saveAll c size {} saves
  r.2 ++ (finalize c r.1).2

/-- Synchronous mode (`use_async = False`): dispatched writes happen at once (tensor_writer.py:116-121). -/
def syncOps (acts : List (Action T)) : List (Op T) :=
  acts.filterMap fun
    | .dispatch n ct => some (.write n ct)
    | .join => none
    | .op o => some o

/-- State of an asynchronous run: directory, dispatched but unfinished writes, remaining actions of the main
thread.  [io/tensor_writer.py:85-187] -/
structure Run (T : Type) where
  fs : FS T
  pending : List (String × Content T)
  todo : List (Action T)

/-- One step of an asynchronous run (`use_async = True`).  Any unfinished write may complete at any time (this
covers every number of threads); `join` waits until none is left (tensor_writer.py:142-146). -/
inductive Step : Run T → Run T → Prop
  | dispatch {fs p n c rest} : Step ⟨fs, p, .dispatch n c :: rest⟩ ⟨fs, p ++ [(n, c)], rest⟩
  | join {fs rest} : Step ⟨fs, [], .join :: rest⟩ ⟨fs, [], rest⟩
  | op {fs fs' p o rest} : applyOp fs o = some fs' → Step ⟨fs, p, .op o :: rest⟩ ⟨fs', p, rest⟩
  | complete {fs p q n c rest} :
      Step ⟨fs, p ++ (n, c) :: q, rest⟩ ⟨Function.update fs n (some c), p ++ q, rest⟩

/-- What a crash in state `r` may leave on disk: any of the unfinished writes, and the write the main thread is
about to do, may be torn.  [io/tensor_writer.py:85-187] -/
inductive CrashFS : Run T → FS T → Prop
  | clean (r : Run T) : CrashFS r r.fs
  | torn {r fs n c} : CrashFS r fs → (n, c) ∈ r.pending → CrashFS r (Function.update fs n (some .torn))
  | tornOp {r fs n c rest} : CrashFS r fs → r.todo = .op (.write n c) :: rest →
      CrashFS r (Function.update fs n (some .torn))
  | tornDispatch {r fs n c rest} : CrashFS r fs → r.todo = .dispatch n c :: rest →
      CrashFS r (Function.update fs n (some .torn))

/-! ## The reader -/

/-- How loading may fail.  [io/lazy_tensor_loader.py:33-148] -/
inductive LoadError where
  /-- "Unable to find model files", lazy_tensor_loader.py:47-48, 78-79 -/
  | noModel
  /-- an unreadable file -/
  | corrupt
  /-- a shard file named by the index does not exist -/
  | missingFile
  /-- `KeyError(key)` -/
  | keyError
deriving DecidableEq, Repr

/-- `ShardedTensorIndex.tensor_paths` (the other fields are derived or constant).  [io/lazy_tensor_loader.py:26-103] -/
structure Index where
  tensorPaths : List (String × String)

/-- `ShardedTensorIndex.from_file` on an existing file, lazy_tensor_loader.py:81-103.  (The `"state_dict"` entry
of pickled training checkpoints is not modelled.) -/
def fromFile (fs : FS T) (name : String) : Except LoadError Index :=
  match fs name with
  | some (.shard entries) => .ok ⟨entries.map (fun e => (e.1, name))⟩
  | some _ => .error .corrupt
  | none => .error .missingFile

/-- `ShardedTensorIndex.from_disk`, lazy_tensor_loader.py:33-79. -/
def fromDisk (fs : FS T) : Except LoadError Index :=
  let found (m : String) : Bool := (fs m).isSome || (fs (m ++ ".index.json")).isSome
  let read (m : String) : Except LoadError Index :=
    match fs (m ++ ".index.json") with
    | some (.index _ wm) => .ok ⟨wm⟩
    | some _ => .error .corrupt
    | none => fromFile fs m
  if found "model.safetensors" then read "model.safetensors"
  else if found "pytorch_model.bin" then read "pytorch_model.bin"
  else .error .noModel

/-- `TensorLoader.get`, loader.py:27-41: open one shard.  All three loaders behave like the dict in the file. -/
def openShard (fs : FS T) (name : String) : Except LoadError (List (String × T)) :=
  match fs name with
  | some (.shard entries) => .ok entries
  | some _ => .error .corrupt
  | none => .error .missingFile

/-- `key = alias` substitution, lazy_tensor_loader.py:125-129. -/
def resolveAlias (idx : Index) (key : String) (aliases : List String) : String :=
  if (dictGet idx.tensorPaths key).isSome then key
  else (aliases.find? (fun a => (dictGet idx.tensorPaths a).isSome)).getD key

/-- `LazyTensorLoader.get_tensor`, lazy_tensor_loader.py:118-148; `cur` is `current_shard` (the open shard's
contents).  Returns the result and the new `current_shard`. -/
def getTensor (fs : FS T) (idx : Index) (cur : Option (List (String × T))) (key : String)
    (aliases : List String) (raiseOnMissing : Bool) :
    Except LoadError (Option T) × Option (List (String × T)) :=
  let key := resolveAlias idx key aliases
  let fetch (shard : List (String × T)) : Except LoadError (Option T) :=
    match dictGet shard key with
    | some t => .ok (some t)
    | none => .error .keyError
  let load : Except LoadError (Option T) × Option (List (String × T)) :=
    match dictGet idx.tensorPaths key with
    | none => (if raiseOnMissing then .error .keyError else .ok none, cur)
    | some file =>
      match openShard fs file with
      | .error e => (.error e, none)
      | .ok shard => (fetch shard, some shard)
  match cur with
  | none => load
  | some shard => if (dictGet shard key).isSome then (fetch shard, cur) else load

/-- A request made of a loader: a read or a `flush` (lazy_tensor_loader.py:150-153). -/
inductive Request where
  | read (key : String) (aliases : List String) (raiseOnMissing : Bool)
  | flush

/-- `current_shard` after a history of requests.  [io/lazy_tensor_loader.py:106-148] -/
def afterHistory (fs : FS T) (idx : Index) : Option (List (String × T)) → List Request →
    Option (List (String × T))
  | cur, [] => cur
  | cur, .read k al r :: rest => afterHistory fs idx (getTensor fs idx cur k al r).2 rest
  | _, .flush :: rest => afterHistory fs idx none rest

end Verif.Writer
