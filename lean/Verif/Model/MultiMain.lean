import Verif.Model.Recipe
import Verif.Model.ScriptMain

/-! # `mergekit-multi` from the command line (`/repo/mergekit/scripts/multimerge.py`)

Joins the command line (`Model/CommandLine.lean`), the validation of documents (`Model/Document.lean`), the replacement of names of merges in a configuration, the tasks (`Model/MultiMerge.lean`) and what
executing them does to the disk (`Model/Recipe.lean`).  Here configurations are those of `Model/Document.lean`, so that patched ones are validated again and written as YAML for the tasks. -/

namespace Verif.Document

open Verif.ModelRef (Str Ref)
open Verif.MultiMerge (pathJoin Name)

variable {K : Type}

/-- `_patch_mr` on a string, multimerge.py:150-165. -/
def relocateWord (names : List Str) (dir s : Str) : Except MultiMerge.Err (Doc K × List Str) :=
  match ModelRef.parse s with
  | .error _ => .error .badReference
  | .ok r =>
    if r.model.path ∈ names then .ok (dumpRef ⟨⟨pathJoin dir r.model.path, r.model.revision⟩, r.lora, r.overrideArchitecture⟩, [r.model.path])
    else .ok (.str s, [])

/-- `set(value.keys()) == {"model", "lora", "override_architecture"}`, multimerge.py:141.  (`model_dump()` also writes what is `None`, `dump` does not: so the third key may be missing here.  A
dictionary with exactly the keys `model` and `lora` that is no reference, of settings or tokens with these names, is taken for one here.) -/
def isRefDict (d : List (Str × Doc K)) : Bool :=
  (d.map Prod.fst).all (fun k => decide (k ∈ MultiMerge.refFields)) && decide (cs!"model" ∈ d.map Prod.fst) && decide (cs!"lora" ∈ d.map Prod.fst)

/-- `d[k] = v` for a key that is there.  [scripts/multimerge.py:145-146] -/
def replaced (d : List (Str × Doc K)) (k : Str) (v : Doc K) : List (Str × Doc K) := d.map (fun e => if e.1 = k then (k, v) else e)

/-- `_patch_mr` on a dictionary that is a model reference, multimerge.py:141-148. -/
def relocateRef (names : List Str) (dir : Str) (d : List (Str × Doc K)) : Except MultiMerge.Err (Doc K × List Str) :=
  match d.lookup cs!"model" with
  | some (.dict m) =>
    match m.lookup cs!"path" with
    | some (.str p) =>
      if p ∈ names then .ok (.dict (replaced d cs!"model" (.dict (replaced m cs!"path" (.str (pathJoin dir p))))), [p])
      else .ok (.dict d, [])
    | _ => .error .key
  | _ => .error .key

mutual
/-- `_patch_mr`, multimerge.py:136-165, with the set `used` as a list.  (Tuples are returned as they are; the only ones are layer ranges, in which there is nothing to replace.) -/
def relocate (names : List Str) (dir : Str) : Doc K → Except MultiMerge.Err (Doc K × List Str)
  | .null => .ok (.null, [])
  | .bool b => .ok (.bool b, [])
  | .int i => .ok (.int i, [])
  | .float x => .ok (.float x, [])
  | .str s => relocateWord names dir s
  | .list l => match relocateList names dir l with
    | .error e => .error e
    | .ok r => .ok (.list r.1, r.2)
  | .dict d =>
    if isRefDict d then relocateRef names dir d
    else match relocateDict names dir d with
      | .error e => .error e
      | .ok r => .ok (.dict r.1, r.2)
/-- `[_patch_mr(x) for x in value]`, multimerge.py:139. -/
def relocateList (names : List Str) (dir : Str) : List (Doc K) → Except MultiMerge.Err (List (Doc K) × List Str)
  | [] => .ok ([], [])
  | v :: l => match relocate names dir v with
    | .error e => .error e
    | .ok a => match relocateList names dir l with
      | .error e => .error e
      | .ok b => .ok (a.1 :: b.1, a.2 ++ b.2)
/-- `{k: _patch_mr(v) for k, v in value.items()}`, multimerge.py:149. -/
def relocateDict (names : List Str) (dir : Str) : List (Str × Doc K) → Except MultiMerge.Err (List (Str × Doc K) × List Str)
  | [] => .ok ([], [])
  | (k, v) :: l => match relocate names dir v with
    | .error e => .error e
    | .ok a => match relocateDict names dir l with
      | .error e => .error e
      | .ok b => .ok ((k, a.1) :: b.1, a.2 ++ b.2)
end

end Verif.Document

namespace Verif.Main

open Verif.ModelRef (Str)
open Verif.MultiMerge (Name MTask Merging Disk)
open Verif.Document (Doc Conf)

variable {K : Type}

/-- What surrounds a run: files, the YAML library (all documents of a text), the conversions of the validation library.  [scripts/multimerge.py:104-105, 229] -/
structure MultiWorld (K : Type) where
  file : Str → Option Str
  yamlAll : Str → Option (List (Doc K))
  lib : Document.Lib K

/-- How the command can end before anything is merged.  [scripts/multimerge.py:84-116, 215-253] -/
inductive MultiErr where
  | usage (e : CommandLine.Err)
  | noFile
  | syntax
  | document
  | config (e : Document.Err)
  | recipe (e : MultiMerge.Err)

/-- The name and the configuration of a document, multimerge.py:231-235, 243.  (A name that is neither a text nor null makes `os.path.join` fail later on, 194, or cannot be looked up, 236; what is no
mapping fails in line 232, 233 or 243.) -/
def readNamed (L : Document.Lib K) : Doc K → Except MultiErr (Name × Conf K)
  | .dict d =>
    match (match d.lookup cs!"name" with
      | none => some none
      | some .null => some none
      | some (.str s) => some (some s)
      | _ => none : Option Name) with
    | none => .error .document
    | some n =>
      match Document.read L (.dict (d.filter (fun e => decide (e.1 ≠ cs!"name")))) with
      | .error e => .error (.config e)
      | .ok c => .ok (n, c)
  | _ => .error .document

/-- The documents one after the other, multimerge.py:231-243. -/
def readAll (L : Document.Lib K) : List (Doc K) → Except MultiErr (List (Name × Conf K))
  | [] => .ok []
  | d :: ds =>
    match readNamed L d with
    | .error e => .error e
    | .ok x =>
      match readAll L ds with
      | .error e => .error e
      | .ok xs => .ok (x :: xs)

/-- `patched_config`, multimerge.py:124-168. -/
def patchedConf (L : Document.Lib K) (names : List Str) (dir : Str) (c : Conf K) : Except MultiErr (Conf K × List Str) :=
  match Document.relocate names dir (Document.dump true c) with
  | .error e => .error (.recipe e)
  | .ok r =>
    match Document.read L r.1 with
    | .error e => .error (.config e)
    | .ok c' => .ok (c', r.2)

/-- The loop multimerge.py:245-252. -/
def patchAll (L : Document.Lib K) (names : List Str) (dir : Str) : List (Name × Conf K) → Except MultiErr (List (Name × Conf K × List Str))
  | [] => .ok []
  | e :: es =>
    match patchedConf L names dir e.2 with
    | .error x => .error x
    | .ok r =>
      match patchAll L names dir es with
      | .error x => .error x
      | .ok rs => .ok ((e.1, r) :: rs)

/-- What is executed: the tasks with the names of their merges, `lazy`, and the options of merges.  [scripts/multimerge.py:114-122] -/
structure MultiRun (K : Type) where
  tasks : List (Name × MTask (Doc K))
  lazy : Bool
  options : List (Str × Option CommandLine.FieldVal)

/-- `merge_configs[name]` or `dependencies[name]`.  [scripts/multimerge.py:196-200] -/
def entry (cfgs : List (Name × Conf K × List Str)) (n : Name) : Option (Conf K × List Str) := (cfgs.find? (fun e => decide (e.1 = n))).map Prod.snd

/-- `load_config` and `make_tasks`, multimerge.py:107-116, 171-253; the configurations are written by `to_yaml` (196).  An empty `--out-path` counts as none (110, 209). -/
def multiTasks (L : Document.Lib K) (docs : List (Doc K)) (dir : Str) (out : Option Str) : Except MultiErr (List (Name × MTask (Doc K))) :=
  match readAll L docs with
  | .error e => .error e
  | .ok confs =>
    match MultiMerge.collect [] confs with
    | .error e => .error (.recipe e)
    | .ok confs =>
      match patchAll L (confs.filterMap Prod.fst) dir confs with
      | .error e => .error e
      | .ok cfgs =>
        match MultiMerge.makeTasks (fun n => (entry cfgs n).map (fun r => Document.dump false r.1)) (fun n => ((entry cfgs n).map (fun r => r.2.dedup.map some)).getD []) (cfgs.map Prod.fst) dir
            (out.filter (fun o => decide (o ≠ []))) with
        | .error e => .error (.recipe e)
        | .ok ts => .ok ts

/-- `main`, multimerge.py:84-122, up to the execution of the tasks.  (`os.makedirs(intermediate_dir)`, 102, makes a directory without a model.) -/
def multiMain (W : MultiWorld K) (line : List Str) : Except MultiErr (MultiRun K) :=
  match CommandLine.call CommandLine.multi line with
  | .error e => .error (.usage e)
  | .ok k =>
    match W.file (argument k cs!"config_file") with
    | none => .error .noFile
    | some text =>
      match W.yamlAll text with
      | none => .error .syntax
      | some docs =>
        match multiTasks W.lib docs ((wordOf k cs!"intermediate_dir").getD []) (wordOf k cs!"out_path") with
        | .error e => .error e
        | .ok ts => .ok ⟨ts, flagOf k cs!"lazy" true, k.merge⟩

/-- What a task does if it is not skipped, multimerge.py:52-58: the configuration is read again and merged. -/
def fromText {D E : Type} (L : Document.Lib K) (merging : Merging (Conf K) D E) : Merging (Doc K) D (Document.Err ⊕ E) := fun d disk old =>
  match Document.read L d with
  | .error e => (old, some (.inl e))
  | .ok c => ((merging c disk old).1, (merging c disk old).2.map .inr)

end Verif.Main
