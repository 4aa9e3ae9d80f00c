import Verif.Model.ModelRef
import Verif.Model.Universe
import Mathlib.Data.List.Dedup

/-! # Several merges in one file (`/repo/mergekit/scripts/multimerge.py`) -/

namespace Verif.MultiMerge

open Verif.ModelRef (Str Ref ModelPath parse)

/-- How a run can fail.  [scripts/multimerge.py:84-253] -/
inductive Err where
  /-- `RuntimeError` of the model reference validators (common.py:70, 201), which `except ValueError` (163) does not catch -/
  | badReference
  /-- a dictionary with the fields of a model reference but no path -/
  | key
  /-- "Circular dependency detected ..." (191) -/
  | circular
  /-- "Duplicate merge name ...", "Multiple unnamed merge configurations ..." (242-247) -/
  | duplicate
  /-- "--out-path is required ..." (109-113) -/
  | usage
  /-- the bound on the recursion of the model, never reached (`C55_tasks`) -/
  | recursion
deriving DecidableEq

/-- Dumped configurations (`model_dump()`): numbers stand for all values that are neither strings, lists nor dictionaries.  (Tuples, such as layer
ranges, are not lists and are returned as they are, 138-170.) -/
inductive Val where
  | num (n : Int)
  | str (s : Str)
  | list (l : List Val)
  | dict (d : List (Str × Val))

/-- `os.path.join(dir, name)` on POSIX.  [scripts/multimerge.py:146, 157, 194] -/
def pathJoin (dir name : Str) : Str :=
  if name.head? = some '/' then name
  else if dir = [] ∨ dir.getLast? = some '/' then dir ++ name
  else dir ++ '/' :: name

/-- The fields of a model reference in a dumped configuration, common.py:206-211, 95-97. -/
def refFields : List Str := ["model".toList, "lora".toList, "override_architecture".toList]

/-- A path and revision as dumped.  [common.py:61-64] -/
def dumpPath (p : ModelPath) : Val :=
  .dict [("path".toList, .str p.path), ("revision".toList, match p.revision with
    | none => .num 0
    | some r => .str r)]

/-- `ModelReference(...).model_dump()`, common.py:204-215 (`Ref.serialize`); absent values are written as a number. -/
def dumpRef (r : Ref) : Val :=
  match r.serialize with
  | .str s => .str s
  | .fields r => .dict [("model".toList, dumpPath r.model), ("lora".toList, match r.lora with
      | none => .num 0
      | some l => dumpPath l), ("override_architecture".toList, match r.overrideArchitecture with
      | none => .num 0
      | some a => .str a)]

/-- `_patch_mr` on a string, multimerge.py:150-165. -/
def patchStr (names : List Str) (dir s : Str) : Except Err (Val × List Str) :=
  match parse s with
  | .error _ => .error .badReference
  | .ok r =>
    if r.model.path ∈ names then
      .ok (dumpRef ⟨⟨pathJoin dir r.model.path, r.model.revision⟩, r.lora, r.overrideArchitecture⟩, [r.model.path])
    else .ok (.str s, [])

/-- `set(value.keys()) == {...}`, multimerge.py:141. -/
def isRefDict (d : List (Str × Val)) : Bool :=
  (d.map Prod.fst).all (fun k => decide (k ∈ refFields)) && refFields.all (fun k => decide (k ∈ d.map Prod.fst))

/-- `d[k]`  [scripts/multimerge.py:141-146] -/
def field (d : List (Str × Val)) (k : Str) : Option Val := (d.find? (fun e => decide (e.1 = k))).map Prod.snd

/-- `d[k] = v` for a key that is there.  [scripts/multimerge.py:145-146] -/
def setField (d : List (Str × Val)) (k : Str) (v : Val) : List (Str × Val) := d.map (fun e => if e.1 = k then (k, v) else e)

/-- `value["model"]["path"]`, multimerge.py:143. -/
def refPath (d : List (Str × Val)) : Option (List (Str × Val) × Str) :=
  match field d "model".toList with
  | some (.dict m) => match field m "path".toList with
    | some (.str p) => some (m, p)
    | _ => none
  | _ => none

/-- `_patch_mr` on a dictionary that is a model reference, multimerge.py:141-148. -/
def patchRef (names : List Str) (dir : Str) (d : List (Str × Val)) : Except Err (Val × List Str) :=
  match refPath d with
  | none => .error .key
  | some (m, p) =>
    if p ∈ names then
      .ok (.dict (setField d "model".toList (.dict (setField m "path".toList (.str (pathJoin dir p))))), [p])
    else .ok (.dict d, [])

mutual
/-- `_patch_mr`, multimerge.py:136-165, with the set `used` as a list. -/
def patch (names : List Str) (dir : Str) : Val → Except Err (Val × List Str)
  | .num n => .ok (.num n, [])
  | .str s => patchStr names dir s
  | .list l => match patchList names dir l with
    | .error e => .error e
    | .ok r => .ok (.list r.1, r.2)
  | .dict d =>
    if isRefDict d then patchRef names dir d
    else match patchDict names dir d with
      | .error e => .error e
      | .ok r => .ok (.dict r.1, r.2)
/-- `[_patch_mr(x) for x in value]`, multimerge.py:139. -/
def patchList (names : List Str) (dir : Str) : List Val → Except Err (List Val × List Str)
  | [] => .ok ([], [])
  | v :: l => match patch names dir v with
    | .error e => .error e
    | .ok a => match patchList names dir l with
      | .error e => .error e
      | .ok b => .ok (a.1 :: b.1, a.2 ++ b.2)
/-- `{k: _patch_mr(v) for k, v in value.items()}`, multimerge.py:149. -/
def patchDict (names : List Str) (dir : Str) : List (Str × Val) → Except Err (List (Str × Val) × List Str)
  | [] => .ok ([], [])
  | (k, v) :: l => match patch names dir v with
    | .error e => .error e
    | .ok a => match patchDict names dir l with
      | .error e => .error e
      | .ok b => .ok ((k, a.1) :: b.1, a.2 ++ b.2)
end

/-! ## Tasks -/

/-- A merge is identified by its name; `none` is the unnamed final merge.  [scripts/multimerge.py:190-194, 231-243] -/
abbrev Name := Option Str

/-- `MergeModelTask`, multimerge.py:28-34, without the options, which are the same for all. -/
inductive MTask (C : Type) where
  | mk (config : C) (name : Str) (outPath : Str) (inputs : List (Name × MTask C))

/-- The input merges of a task.  [scripts/multimerge.py:31] -/
def MTask.inputs {C : Type} : MTask C → List (Name × MTask C)
  | .mk _ _ _ i => i

/-- `tasks` and `touched`, multimerge.py:180-181. -/
structure State (C : Type) where
  tasks : List (Name × MTask C)
  touched : List Name

/-- `name in tasks`, `tasks[name]`, multimerge.py:185-186. -/
def State.get {C : Type} (st : State C) (n : Name) : Option (MTask C) :=
  (st.tasks.find? (fun e => decide (e.1 = n))).map Prod.snd

/-- `{dep: _make_task(dep) for dep in ...}`, multimerge.py:199. -/
def makeAll {C : Type} (go : Name → State C → Except Err (MTask C × State C)) :
    List Name → State C → Except Err (List (Name × MTask C) × State C)
  | [], st => .ok ([], st)
  | n :: ns, st => match go n st with
    | .error e => .error e
    | .ok (t, st') => match makeAll go ns st' with
      | .error e => .error e
      | .ok (ts, st'') => .ok ((n, t) :: ts, st'')

/-- `_make_task`, multimerge.py:183-205.  `config` is `merge_configs`, `deps n` lists the set `dependencies[n]`, `outOf` gives the output path. -/
def makeTask {C : Type} (config : Name → Option C) (deps : Name → List Name) (outOf : Name → Str) :
    Nat → Name → State C → Except Err (MTask C × State C)
  | 0, _, _ => .error .recursion
  | fuel + 1, n, st =>
    match st.get n with
    | some t => .ok (t, st)
    | none =>
      if n ∈ st.touched then .error .circular
      else match config n with
        | none => .error .key
        | some c => match makeAll (makeTask config deps outOf fuel) (deps n) { st with touched := n :: st.touched } with
          | .error e => .error e
          | .ok (inputs, st') =>
            let t := MTask.mk c (n.getD "final merge".toList) (outOf n) inputs
            .ok (t, { st' with tasks := (n, t) :: st'.tasks })

/-- The output path of a merge, multimerge.py:190-194. -/
def outPathOf (dir : Str) (out : Str) : Name → Str
  | none => out
  | some n => pathJoin dir n

/-- `make_tasks`, multimerge.py:171-212, after the check in `main` (109-113); `names` are the keys of `merge_configs`. -/
def makeTasks {C : Type} (config : Name → Option C) (deps : Name → List Name) (names : List Name) (dir : Str) (out : Option Str) :
    Except Err (List (Name × MTask C)) :=
  match out with
  | none =>
    if none ∈ names then .error .usage
    else (makeAll (makeTask config deps (outPathOf dir []) (names.length + 1)) names ⟨[], []⟩).map Prod.fst
  | some o => (makeAll (makeTask config deps (outPathOf dir o) (names.length + 1)) names ⟨[], []⟩).map Prod.fst

/-- Arguments of a task, multimerge.py:36-37. -/
def MTask.args {C : Type} (t : MTask C) : List (String × MTask C) :=
  t.inputs.map (fun e => (String.ofList (e.1.getD "None".toList), e.2))

/-! ## Loading the documents -/

/-- The loop multimerge.py:231-243: `merge_configs` (configurations already parsed). -/
def collect {C : Type} : List (Name × C) → List (Name × C) → Except Err (List (Name × C))
  | acc, [] => .ok acc
  | acc, (n, c) :: rest => if n ∈ acc.map Prod.fst then .error .duplicate else collect (acc ++ [(n, c)]) rest

/-- `load_config`, multimerge.py:215-253: patched configurations and dependencies.  Configurations are represented by what `model_dump()` gives;
validating a patched dump is left out. -/
def loadConfig (docs : List (Name × Val)) (dir : Str) : Except Err (List (Name × Val × List Str)) :=
  match collect [] docs with
  | .error e => .error e
  | .ok cfgs =>
    let names := cfgs.filterMap Prod.fst
    cfgs.mapM (fun e => match patch names dir e.2 with
      | .error er => .error er
      | .ok r => .ok (e.1, r.1, r.2))

/-- `main`, multimerge.py:84-116, up to the execution of the tasks: configuration, dependencies and tasks. -/
def prepare (docs : List (Name × Val)) (dir : Str) (out : Option Str) : Except Err (List (Name × MTask Val)) :=
  match loadConfig docs dir with
  | .error e => .error e
  | .ok cfgs =>
    let find := fun n => (cfgs.find? (fun e => decide (e.1 = n))).map Prod.snd
    makeTasks (fun n => (find n).map Prod.fst) (fun n => match find n with
      | none => []
      | some r => r.2.dedup.map some) (cfgs.map Prod.fst) dir out

end Verif.MultiMerge
