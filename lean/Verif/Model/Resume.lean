import Verif.Model.Writer
import Verif.Model.ModelRef

/-! # Taking up earlier results (`/repo/mergekit/scripts/multimerge.py:39-60`, `/repo/mergekit/merge.py:30-150`,
`/repo/mergekit/common.py:83-140`) -/

namespace Verif.Resume

open Verif.Writer
open Verif.ModelRef (Str ModelPath Ref)

/-! ## Output directories of a merge -/

/-- `MODEL_CHECK_FILENAMES`, multimerge.py:20-25. -/
def checkNames : List String :=
  ["model.safetensors", "pytorch_model.bin", "model.safetensors.index.json", "pytorch_model.bin.index.json"]

/-- The output directory of a merge: the files of the tensor writer, and the names of the other files.  [scripts/multimerge.py:39-60] -/
structure OutDir (T : Type) where
  weights : FS T
  others : List String

/-- "Model already exists", multimerge.py:40-47. -/
def present {T : Type} (d : OutDir T) : Bool :=
  decide ("config.json" ∈ d.others) && checkNames.any (fun f => (d.weights f).isSome)

/-- The files `run_merge` writes after the weights, in this order, merge.py:92-134: the configuration, the model card and the configuration
of the merge, the files of the tokenizer, and those copied along. -/
def afterWeights (card : Bool) (tokenizer tagalong : List String) : List String :=
  ["config.json"] ++ (if card then ["README.md", "mergekit_config.yml"] else []) ++ tokenizer ++ tagalong

/-- One execution of `MergeModelTask`, multimerge.py:39-60, with the merge of the same models and settings every time (`saves` are the tensors
it saves), which may be cut off at any point.  A file being written counts as there. -/
inductive Attempt {T : Type} (c : Conf) (size : T → Nat) (saves : List (String × T)) (after : List String) (lazy : Bool) :
    OutDir T → OutDir T → Prop
  /-- skipped (40-49) -/
  | skip (d : OutDir T) : lazy = true → present d = true → Attempt c size saves after lazy d d
  /-- cut off while weights are written, by any number of threads -/
  | crashWriting (d : OutDir T) (r : Run T) (fs : FS T) : ¬ (lazy = true ∧ present d = true) →
      Relation.ReflTransGen Step ⟨d.weights, [], session c size saves⟩ r → CrashFS r fs →
      Attempt c size saves after lazy d ⟨fs, d.others⟩
  /-- cut off after `k` of the other files, or finished if these are all -/
  | afterwards (d : OutDir T) (fs : FS T) (k : Nat) : ¬ (lazy = true ∧ present d = true) →
      applyOps d.weights (syncOps (session c size saves)) = some fs → Attempt c size saves after lazy d ⟨fs, d.others ++ after.take k⟩

/-! ## The cache of models with merged adapters -/

/-- `os.path.basename`: what follows the last slash.  [common.py:83-88] -/
def basename (p : Str) : Str := (p.reverse.takeWhile (fun ch => ch != '/')).reverse

/-- `ModelPath._unique_id`, common.py:83-88, for any checksum. -/
def uniqueId (crc : Str → Nat) (m : ModelPath) : Str := basename m.path ++ '_' :: Nat.toDigits 10 (crc m.print)

/-- Name of the entry, common.py:112-115. -/
def entryName (crc : Str → Nat) (m l : ModelPath) : Str := uniqueId crc m ++ '_' :: uniqueId crc l

/-- What a cache entry holds: what it was made from, and which files have been written.  [common.py:100-140] -/
structure Entry where
  model : ModelPath
  lora : ModelPath
  dtype : Option Str
  files : List String

/-- The cache directory, by names of entries.  [common.py:112-115] -/
abbrev Cache := Str → Option Entry

/-- `ModelReference.merged` for a reference with an adapter, common.py:100-140; `files` are the files `save_pretrained` writes and `crash` tells
after how many of them the program is cut off (`some 0` includes everything from the creation of the directory on).  Returns the cache
and the name of the entry used. -/
def merged (crc : Str → Nat) (files : List String) (cache : Cache) (m l : ModelPath) (dtype : Option Str) (crash : Option Nat) :
    Cache × Option Str :=
  let name := entryName crc m l
  match cache name with
  | some _ => (cache, some name)
  | none => match crash with
    | none => (Function.update cache name (some ⟨m, l, dtype, files⟩), some name)
    | some k => (Function.update cache name (some ⟨m, l, dtype, files.take k⟩), none)

/-- A call of `merged`.  [common.py:100-140] -/
structure Call where
  model : ModelPath
  lora : ModelPath
  dtype : Option Str := none
  crash : Option Nat := none

/-- The cache after a history of calls (in any number of program runs).  [common.py:100-140] -/
def afterCalls (crc : Str → Nat) (files : List String) : Cache → List Call → Cache
  | cache, [] => cache
  | cache, x :: xs => afterCalls crc files (merged crc files cache x.model x.lora x.dtype x.crash).1 xs

end Verif.Resume
