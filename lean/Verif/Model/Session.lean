import Verif.Model.Writer
import Verif.Model.ModelRef

/-! # The loaders a process keeps (`LoaderCache`, `/repo/mergekit/io/tasks.py:20-57`)

The dictionary of loaders is an attribute of the class, shared by all threads and by everything run in the process; the options are attributes
of an instance, of which each thread has its own. -/

namespace Verif.Session

open Verif.Writer
open Verif.ModelRef (Ref)

/-- The options a `LoaderCache` holds, with the values of an instance that was not set up, tasks.py:22-26. -/
structure Opts where
  loraCacheDir : Option String := none
  hfCacheDir : Option String := none
  lazyUnpickle : Bool := false
  trustRemoteCode : Bool := false
  loraMergeDtype : Option String := none
deriving DecidableEq

/-- What is outside of the process: the directory in which the files of a model are (`merged(...)` and `local_path(...)`, common.py:100-140,
152-178; downloads and adapter merges are made if need be), the files of each directory, and `config(trust_remote_code).model_type`
(common.py:142-150).  `LoadError.noModel` stands for any failure to find or make the files. -/
structure World (T : Type) where
  find : Opts → Ref → Except LoadError String
  dirs : String → FS T
  modelType : Bool → Ref → Except LoadError String

/-- A `LazyTensorLoader`: `index` (with its `base_path`) and `current_shard`, lazy_tensor_loader.py:106-116. -/
structure Kept (T : Type) where
  dir : String
  index : Index
  cur : Option (List (String × T)) := none

/-- `LoaderCache.loaders`, and the attributes of each thread's instance, tasks.py:20-34. -/
structure Process (T : Type) where
  loaders : List (Ref × Kept T) := []
  opts : Nat → Opts := fun _ => {}

section
variable {T : Type}

/-- `LoaderCache().setup(options)` in a thread, tasks.py:52-57. -/
def setup (p : Process T) (thread : Nat) (o : Opts) : Process T := { p with opts := Function.update p.opts thread o }

/-- `LoaderCache().get(model)` in a thread, tasks.py:36-46. -/
def get (w : World T) (p : Process T) (thread : Nat) (m : Ref) : Except LoadError (Kept T) × Process T :=
  match dictGet p.loaders m with
  | some k => (.ok k, p)
  | none =>
    match w.find (p.opts thread) m with
    | .error e => (.error e, p)
    | .ok dir =>
      match fromDisk (w.dirs dir) with
      | .error e => (.error e, p)
      | .ok idx => (.ok ⟨dir, idx, none⟩, { p with loaders := dictSet p.loaders m ⟨dir, idx, none⟩ })

/-- `LoaderCache().get(model).get_tensor(key)` in a thread: what `LoadTensor.execute` does for a name that is in the index, tasks.py:110-114. -/
def read (w : World T) (p : Process T) (thread : Nat) (m : Ref) (key : String) : Except LoadError (Option T) × Process T :=
  match get w p thread m with
  | (.error e, p') => (.error e, p')
  | (.ok k, p') =>
    let r := getTensor (w.dirs k.dir) k.index k.cur key [] true
    (r.1, { p' with loaders := dictSet p'.loaders m { k with cur := r.2 } })

/-- `self.model.config(trust_remote_code=LoaderCache().trust_remote_code).model_type` in a thread, by which the conversion of checkpoints is
chosen, tasks.py:97-99. -/
def modelType (w : World T) (p : Process T) (thread : Nat) (m : Ref) : Except LoadError String :=
  w.modelType (p.opts thread).trustRemoteCode m

/-- `flush_all`, tasks.py:48-50. -/
def flushAll (p : Process T) : Process T := { p with loaders := p.loaders.map (fun e => (e.1, { e.2 with cur := none })) }

/-- What happens in the course of a process: calls by its threads, and changes outside (which includes what it writes itself).
[io/tasks.py:20-57; merge.py:43-60] -/
inductive Act (T : Type) where
  | setup (thread : Nat) (o : Opts)
  | get (thread : Nat) (m : Ref)
  | read (thread : Nat) (m : Ref) (key : String)
  | flushAll
  | change (w : World T)

/-- One of these.  [io/tasks.py:20-57] -/
def step (s : World T × Process T) : Act T → World T × Process T
  | .setup t o => (s.1, setup s.2 t o)
  | .get t m => (s.1, (get s.1 s.2 t m).2)
  | .read t m key => (s.1, (read s.1 s.2 t m key).2)
  | .flushAll => (s.1, flushAll s.2)
  | .change w => (w, s.2)

/-- A new process after some time.  [io/tasks.py:20-57] -/
def after (w : World T) (acts : List (Act T)) : World T × Process T := acts.foldl step (w, {})

/-- How `run_merge` begins in a thread, merge.py:43-60: options are set and the loaders of the models referred to are made. -/
def warmUp (thread : Nat) (o : Opts) (models : List Ref) : List (Act T) := .setup thread o :: models.map (.get thread)

end

end Verif.Session
