import Verif.Model.Chars
import Verif.Model.ModelRef
import Mathlib.LinearAlgebra.Matrix.Diagonal
import Mathlib.Data.Real.Sqrt
import Mathlib.Data.Fintype.Card
import Mathlib.Data.Fin.SuccPred

/-! # Extraction of adapters (`/repo/mergekit/scripts/extract_lora.py`)

Numbers are real; `torch.linalg.svd` is a parameter (what it returns, `u`, `s`, `vh`).  Modules are listed as `named_modules` lists them; the
architecture is the set of its weights' names.  What PEFT does with the adapter is not code of the repository: the rank and the scale it uses for a
module are described by `peftValue`. -/

namespace Verif.Lora

open Verif.ModelRef (Str)

/-- How a run can fail.  [scripts/extract_lora.py:167, 269-308; io/tasks.py:117-122, 227-231] -/
inductive Err where
  /-- `max` of nothing: `ValueError` -/
  | value
  /-- `append` of a tuple: `AttributeError` -/
  | attribute
  /-- `None` in a subtraction: `TypeError` -/
  | type
  /-- a required tensor is not there: `RuntimeError` -/
  | missing
deriving DecidableEq

/-! ## Decomposition -/

section
variable {m n k : Nat}

/-- `rank`, extract_lora.py:239-241 (`max_rank` is taken not to be negative). -/
noncomputable def rankOf (maxRank : Nat) (eps : ℝ) (s : Fin k → ℝ) : Nat :=
  if 0 < eps then min (Finset.univ.filter (fun i => eps < s i)).card (min maxRank k) else min maxRank k

theorem rankOf_le (maxRank : Nat) (eps : ℝ) (s : Fin k → ℝ) : rankOf maxRank eps s ≤ k := by
  unfold rankOf; split <;> omega

/-- `s[:rank]`.  [scripts/extract_lora.py:243-251] -/
def firstOf {r : Nat} (h : r ≤ k) (s : Fin k → ℝ) : Fin r → ℝ := fun i => s (Fin.castLE h i)

/-- `scale_a`, extract_lora.py:242-248. -/
noncomputable def scaleA {r : Nat} (distribute : Bool) (s : Fin r → ℝ) : Matrix (Fin r) (Fin r) ℝ :=
  if distribute then Matrix.diagonal (fun i => Real.sqrt (s i)) else Matrix.diagonal s

/-- `scale_b`, extract_lora.py:242-248. -/
noncomputable def scaleB {r : Nat} (distribute : Bool) (s : Fin r → ℝ) : Matrix (Fin r) (Fin r) ℝ :=
  if distribute then Matrix.diagonal (fun i => Real.sqrt (s i)) else 1

/-- `weight_a = scale_a @ vh[:rank]`, extract_lora.py:250. -/
noncomputable def weightA {r : Nat} (h : r ≤ k) (distribute : Bool) (s : Fin k → ℝ) (vh : Matrix (Fin k) (Fin n) ℝ) : Matrix (Fin r) (Fin n) ℝ :=
  scaleA distribute (firstOf h s) * vh.submatrix (Fin.castLE h) id

/-- `weight_b = u[:, :rank] @ scale_b`, extract_lora.py:251. -/
noncomputable def weightB {r : Nat} (h : r ≤ k) (distribute : Bool) (s : Fin k → ℝ) (u : Matrix (Fin m) (Fin k) ℝ) : Matrix (Fin m) (Fin r) ℝ :=
  u.submatrix id (Fin.castLE h) * scaleB distribute (firstOf h s)

end

/-! ## The adapter's configuration -/

/-- The fields of `adapter_config.json` that matter here. -/
structure Config where
  r : Nat
  alpha : Nat
  rankPattern : List (Str × Nat)
  alphaPattern : List (Str × Nat)
  modulesToSave : List Str
  targetModules : List Str
deriving DecidableEq

/-- The part of a name behind its last dot (`name.split(".")[-1]`).  [scripts/extract_lora.py:172-174, 427, 432] -/
def lastPart (name : Str) : Str := (name.reverse.takeWhile (· ≠ '.')).reverse

/-- `make_config_dict` with the largest rank, extract_lora.py:160-176, 196-218; `ranks` are the ranks of the decomposed modules.  (The target modules
are a set in the code; their order is of no importance.) -/
def makeConfig (ranks : List (Str × Nat)) (modulesToSave : List Str) : Except Err Config :=
  match ranks with
  | [] => .error .value
  | e :: es =>
    let top := (es.map Prod.snd).foldl max e.2
    let different := (e :: es).filter (fun x => decide (x.2 ≠ top))
    .ok { r := top, alpha := top, rankPattern := different, alphaPattern := different, modulesToSave := modulesToSave,
          targetModules := ((e :: es).map (fun x => lastPart x.1)).eraseDups }

/-- The value PEFT uses for a module: that of the first key that is its name or a part of it behind a dot, else the default
(`get_pattern_key`; not code of the repository).  [the PEFT library on scripts/extract_lora.py:211-214] -/
def peftValue (pattern : List (Str × Nat)) (default : Nat) (name : Str) : Nat :=
  match pattern.find? (fun e => decide (name = e.1) || ('.' :: e.1).isSuffixOf name) with
  | some e => e.2
  | none => default

/-! ## What is extracted and what is saved -/

/-- Kinds of modules, extract_lora.py:416-422, 436, 451. -/
inductive Kind where
  /-- `Linear`, `Conv1d`, `Conv2d` -/
  | linear
  /-- `Embedding` -/
  | embedding
  | other
deriving DecidableEq

/-- A module of the model: its name, its kind, whether it has a weight (in the model or in the architecture's list), and whether it is the model's
input or output embedding.  [scripts/extract_lora.py:398-414] -/
structure Module where
  name : Str
  kind : Kind
  hasWeight : Bool
  isEmbed : Bool
deriving DecidableEq

/-- The options, with the regular expressions as tests of names (`included`: no `--include-regex` or one of them found).  [scripts/extract_lora.py:348-360] -/
structure Opts where
  embedLora : Bool
  skipUndecomposable : Bool
  included : Str → Bool
  excluded : Str → Bool

/-- `_should_extract`, extract_lora.py:391-396. -/
def shouldExtract (o : Opts) (name : Str) : Bool := o.included name && !o.excluded name

/-- What is planned for a module.  [scripts/extract_lora.py:432-466] -/
inductive Action where
  /-- decomposed -/
  | lora
  /-- saved at full rank -/
  | full
  | nothing
deriving DecidableEq

/-- `modules_to_save.append(key)` unless it is there; given on the command line, the modules are a tuple (`frozen`), which has no `append`.  [scripts/extract_lora.py:427-430, 459-460] -/
def addKey (frozen : Bool) (save : List Str) (key : Str) : Except Err (List Str) :=
  if key ∈ save then .ok save else if frozen then .error .attribute else .ok (save ++ [key])

/-- Whether an embedding has to be saved at full rank, extract_lora.py:416-430. -/
def embedFull (o : Opts) (m : Module) : Bool := !o.embedLora && (m.isEmbed || decide (m.kind = .embedding)) && !o.excluded m.name

/-- The rest of the loop's body, extract_lora.py:432-466. -/
def decide_ (o : Opts) (frozen : Bool) (save : List Str) (m : Module) : Except Err (List Str × Action) :=
  if m.name ∈ save ∨ lastPart m.name ∈ save then .ok (save, .full)
  else if shouldExtract o m.name then
    if m.kind ≠ .other then .ok (save, .lora)
    else if o.skipUndecomposable then .ok (save, .nothing)
    else (addKey frozen save (lastPart m.name)).map (fun s => (s, .full))
  else .ok (save, .nothing)

/-- The body of the loop, extract_lora.py:398-466. -/
def planModule (o : Opts) (frozen : Bool) (save : List Str) (m : Module) : Except Err (List Str × Action) :=
  if m.hasWeight then
    if embedFull o m then
      match addKey frozen save (lastPart m.name) with
      | .error e => .error e
      | .ok save => decide_ o frozen save m
    else decide_ o frozen save m
  else .ok (save, .nothing)

/-- The loop.  [scripts/extract_lora.py:398-466] -/
def planFrom (o : Opts) (frozen : Bool) (save : List Str) : List Module → Except Err (List Str × List (Module × Action))
  | [] => .ok (save, [])
  | m :: ms =>
    match planModule o frozen save m with
    | .error e => .error e
    | .ok (save, a) => (planFrom o frozen save ms).map (fun r => (r.1, (m, a) :: r.2))

/-- `plan_extraction` for the modules given with `--save-module` (`if not modules_to_save: modules_to_save = []`, extract_lora.py:118-119: an empty
tuple becomes a list).  The result: the modules to save named in the adapter's configuration and what is done with each module. -/
def plan (o : Opts) (given : List Str) (ms : List Module) : Except Err (List Str × List (Module × Action)) :=
  planFrom o (!given.isEmpty) given ms

/-! ## The tensors of the adapter -/

section
variable {T : Type}

/-- `LoadTensor.execute`, io/tasks.py:110-126, for the tensor stored under the name (aliases, ties and conversions are `Verif.LoadTask`'s business):
a missing tensor is an error unless it is optional. -/
def loadTensor (optional : Bool) (stored : Option T) : Except Err (Option T) :=
  match stored with
  | some t => .ok (some t)
  | none => if optional then .ok none else .error .missing

/-- `TaskVectorTask.execute`, extract_lora.py:269-270: `model - base`. -/
def taskVector [Sub T] (base model : Option T) : Except Err T :=
  match base, model with
  | some b, some f => .ok (f - b)
  | _, _ => .error .type

/-- The difference of the two models for a weight, extract_lora.py:489-491. -/
def difference [Sub T] (optional : Bool) (base model : Option T) : Except Err T :=
  (loadTensor optional base).bind (fun b => (loadTensor optional model).bind (fun f => taskVector b f))

/-- `SaveTensor.execute` for a loaded tensor, io/tasks.py:227-234 and extract_lora.py:529-555. -/
def saveLoaded (name : Str) (optional : Bool) (stored : Option T) : Except Err (List (Str × T)) :=
  (loadTensor optional stored).map (fun t => match t with
    | some t => [(name, t)]
    | none => [])

/-- `plan_module_to_save` and its tasks, extract_lora.py:529-555.  `arch` says which weights the architecture lists, and whether they are optional; a
weight it does not list counts as optional (extract_lora.py:403-412). -/
def saveFull (arch : Str → Option Bool) (model : Str → Option T) (name : Str) : Except Err (List (Str × T)) :=
  (saveLoaded (cs!"base_model.model." ++ name ++ cs!".weight") ((arch (name ++ cs!".weight")).getD true) (model (name ++ cs!".weight"))).bind (fun w =>
    match arch (name ++ cs!".bias") with
    | none => .ok w
    | some opt => (saveLoaded (cs!"base_model.model." ++ name ++ cs!".bias") opt (model (name ++ cs!".bias"))).map (fun b => w ++ b))

/-- `LoRAModuleSaveTask.execute`, extract_lora.py:290-308. -/
def savePair (embedding : Bool) (name : Str) (ab : T × T) : List (Str × T) :=
  if embedding then [(cs!"base_model.model." ++ name ++ cs!".lora_embedding_A", ab.1), (cs!"base_model.model." ++ name ++ cs!".lora_embedding_B", ab.2)]
  else [(cs!"base_model.model." ++ name ++ cs!".lora_A.weight", ab.1), (cs!"base_model.model." ++ name ++ cs!".lora_B.weight", ab.2)]

/-- `plan_lora_module` and its tasks, extract_lora.py:477-526; `decomp` is the decomposition (of the transposed difference for embeddings). -/
def saveLora [Sub T] (arch : Str → Option Bool) (base model : Str → Option T) (decomp : Bool → T → T × T) (embedding : Bool) (name : Str) :
    Except Err (List (Str × T)) :=
  (difference ((arch (name ++ cs!".weight")).getD true) (base (name ++ cs!".weight")) (model (name ++ cs!".weight"))).bind (fun tv =>
    match arch (name ++ cs!".bias") with
    | none => .ok (savePair embedding name (decomp embedding tv))
    | some opt =>
      (difference opt (base (name ++ cs!".bias")) (model (name ++ cs!".bias"))).map (fun b =>
        savePair embedding name (decomp embedding tv) ++ [(cs!"base_model.model." ++ name ++ cs!".lora_B.bias", b)]))

/-- The tensors written for a module.  [scripts/extract_lora.py:432-466, 477-555] -/
def saveModule [Sub T] (arch : Str → Option Bool) (base model : Str → Option T) (decomp : Bool → T → T × T) (e : Module × Action) :
    Except Err (List (Str × T)) :=
  match e.2 with
  | .nothing => .ok []
  | .full => saveFull arch model e.1.name
  | .lora => saveLora arch base model decomp (decide (e.1.kind = .embedding)) e.1.name

/-- The adapter's tensors.  [scripts/extract_lora.py:348-474] -/
def adapter [Sub T] (arch : Str → Option Bool) (base model : Str → Option T) (decomp : Bool → T → T × T) :
    List (Module × Action) → Except Err (List (Str × T))
  | [] => .ok []
  | e :: es => (saveModule arch base model decomp e).bind (fun a => (adapter arch base model decomp es).map (fun r => a ++ r))

end

end Verif.Lora
