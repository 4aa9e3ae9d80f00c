import Verif.Model.WholeTask
import Verif.Model.WholeSphere

/-! # The registered merge methods (`/repo/mergekit/merge_methods/registry.py`, `easy_define.py`, `__init__.py`)

What every method is handed (`make_task`), the methods that are not in `WholeMerge`, `WholeTask`, `WholeSphere`, the decorator that turns a
function into a method, and the table of all methods. -/

namespace Verif.WholeMerge

open Verif.ModelRef (Str Ref)
open Verif.LoadTask (WeightInfo)
open Verif.Config (Scalar)
open Verif.Plan (Planned ParamDef)

/-! ## What a method is handed -/

/-- The arguments of `make_task` but the tensors, merge_methods/base.py:60-69: the weight, the base model, the models `tensor_parameters` has an
entry for, `parameters[key]` and `tensor_parameters[model][key]` (`none`: no such key; `some none`: python's `None`). -/
structure View (K : Type) where
  weight : WeightInfo
  base : Option Ref
  known : Ref → Bool
  value : Str → Option (Option (Scalar K))
  valueOf : Ref → Str → Option (Option (Scalar K))

/-- What the planner hands to `make_task`, plan.py:225-235. -/
def viewOf {K : Type} (p : Planned K) : View K :=
  ⟨p.weight, p.baseModel, fun m => (lookup p.tensorParams m).isSome, lookup p.params,
    fun m key => (lookup p.tensorParams m).bind (fun x => lookup x key)⟩

section
variable {K : Type} [Field K] [LinearOrder K]

/-- A value as a field of type `bool` of a task takes it, nuslerp.py:24-25, model_stock.py:25: 0 and 1 only.
(Texts such as "true" are converted by pydantic; they are refused here.) -/
def asBool : Option (Option (Scalar K)) → Option Bool
  | some (some (.num x)) => if x = 0 then some false else if x = 1 then some true else none
  | _ => none

/-- A value as a number, karcher.py:33 (`tol: float`), nuslerp.py:52 (`sum(weights)`), ram.py:19, nearswap.py:29: what is no number makes the
arithmetic there raise. -/
def asNumber : Option (Option (Scalar K)) → Option K
  | some (some (.num x)) => some x
  | _ => none

/-- `if x:` for a value, multislerp.py:68 (`normalize_weights`). -/
def asTruth : Option (Option (Scalar K)) → Bool
  | some (some (.num x)) => decide (x ≠ 0)
  | some (some (.str s)) => decide (s ≠ [])
  | _ => false

/-- A value as the field `max_iter: int` takes it, karcher.py:32; `range` of a negative number is empty (karcher.py:160). -/
def asCount [FloorRing K] : Option (Option (Scalar K)) → Option Nat
  | some (some (.num x)) => if x = (⌊x⌋ : K) then some ⌊x⌋.toNat else none
  | _ => none

end

/-! ## The decorator -/

/-- How an argument of a decorated function is annotated, as far as easy_define.py:38-66, 72-97 tells annotations apart. -/
inductive Annotation where
  /-- no annotation: `inspect.Parameter.empty` -/
  | missing
  /-- `x: None` -/
  | none
  /-- `int`, `float` or `bool` -/
  | scalar
  /-- `List[float]` or `List[int]` -/
  | numbers
  /-- `List[torch.Tensor]` -/
  | tensors
  /-- `torch.Tensor` -/
  | tensor
  /-- `Optional[torch.Tensor]` -/
  | optTensor
  | other
deriving DecidableEq

/-- The default of an argument: a number (or bool), `None`, or something else.  [easy_define.py:79-84, 99-108] -/
inductive Default (K : Type) where
  | number (x : K)
  | none
  | other
deriving DecidableEq

/-- An argument of the decorated function, `inspect.signature(func).parameters`, easy_define.py:37. -/
structure Arg (K : Type) where
  name : Str
  annotation : Annotation
  default : Option (Default K)
deriving DecidableEq

/-- Why the decorator raises `ValueError`, easy_define.py:38-66, 77-80, 104-107. -/
inductive RegisterErr where
  | noTensors
  | badTensors
  | badBase
  | unannotated
  | badDefault
deriving DecidableEq

/-- What the decorator knows of the function, easy_define.py:32-36. -/
structure Decorated (K : Type) where
  useBase : Bool := false
  requireBase : Bool := false
  usedKwargs : List Str := []
  params : List (ParamDef K) := []
  tensorParams : List (ParamDef K) := []

section
variable {K : Type}

/-- `default_value` in a `ConfigParameterDef`, easy_define.py:81-92 (a default that is no number is kept as `None`; the code keeps it). -/
def Default.value : Default K → Option (Scalar K)
  | .number x => some (.num x)
  | _ => .none

/-- `STANDARD_KWARGS`, easy_define.py:23. -/
def standardKwargs : List Str := ["output_weight".toList, "base_model".toList]

/-- The loop over the arguments, easy_define.py:67-109. -/
def registerArgs : List (Arg K) → Decorated K → Except RegisterErr (Decorated K)
  | [], d => .ok d
  | a :: rest, d =>
    if a.name = "base_tensor".toList ∨ a.name = "tensors".toList then registerArgs rest d
    else if a.name ∈ standardKwargs then registerArgs rest { d with usedKwargs := d.usedKwargs ++ [a.name] }
    else
      match a.annotation with
      | .none => .error .unannotated
      | .scalar =>
        registerArgs rest { d with params := d.params ++ [⟨a.name, a.default.isNone, a.default.bind Default.value⟩] }
      | .numbers =>
        match a.default with
        | some .none => .error .badDefault
        | some .other => .error .badDefault
        | default => registerArgs rest { d with tensorParams := d.tensorParams ++ [⟨a.name, default.isNone, default.bind Default.value⟩] }
      | _ => registerArgs rest d

/-- The beginning of `__merge_method`, easy_define.py:32-66: the arguments `tensors` and `base_tensor`. -/
def register (args : List (Arg K)) : Except RegisterErr (Decorated K) :=
  match args.find? (fun a => decide (a.name = "tensors".toList)) with
  | none => .error .noTensors
  | some t =>
    if t.annotation ≠ .tensors then .error .badTensors
    else
      match args.find? (fun a => decide (a.name = "base_tensor".toList)) with
      | none => registerArgs args {}
      | some b =>
        match b.annotation with
        | .tensor => registerArgs args { useBase := true, requireBase := true }
        | .optTensor => registerArgs args { useBase := true }
        | _ => .error .badBase

/-- The names of the arguments in the call `func(tensors=tensors, **inner_kwargs)`, easy_define.py:152-166. -/
def Decorated.passed (d : Decorated K) : List Str :=
  ["tensors".toList] ++ d.usedKwargs ++ (if d.useBase then ["base_tensor".toList] else []) ++ d.params.map (·.name) ++ d.tensorParams.map (·.name)

/-- Whether python accepts a call with these arguments by name: each is known, and each one without default is there.  [easy_define.py:166] -/
def callable (args : List (Arg K)) (passed : List Str) : Bool :=
  passed.all (fun n => decide (n ∈ args.map (·.name))) && args.all (fun a => a.default.isSome || decide (a.name ∈ passed))

/-- The signature in the sense of `Model/MergeMethods.lean`.  [easy_define.py:33-36, 113] -/
def Decorated.sig (d : Decorated K) : Merge.Signature :=
  ⟨d.useBase, d.requireBase, decide ("base_model".toList ∈ d.usedKwargs)⟩

/-- The arguments of `multislerp`, multislerp.py:16-22. -/
def multislerpArgs [Field K] : List (Arg K) :=
  [⟨"tensors".toList, .tensors, none⟩, ⟨"weight".toList, .numbers, none⟩, ⟨"base_tensor".toList, .optTensor, some .none⟩,
   ⟨"normalize_weights".toList, .scalar, some (.number 1)⟩, ⟨"eps".toList, .scalar, some (.number (1 / 100000000))⟩]

/-- The arguments of `nearswap_merge`, nearswap.py:16-18. -/
def nearswapArgs : List (Arg K) :=
  [⟨"tensors".toList, .tensors, none⟩, ⟨"base_tensor".toList, .tensor, none⟩, ⟨"t".toList, .scalar, none⟩]

/-- The arguments of `ram_merge`, ram.py:16-20. -/
def ramArgs [Field K] : List (Arg K) :=
  [⟨"tensors".toList, .tensors, none⟩, ⟨"base_tensor".toList, .tensor, none⟩, ⟨"epsilon".toList, .scalar, some (.number (1 / 100000))⟩]

/-- The arguments of `ramplus_tl_merge`, ram.py:46-52. -/
def ramplusArgs [Field K] : List (Arg K) :=
  [⟨"tensors".toList, .tensors, none⟩, ⟨"base_tensor".toList, .tensor, none⟩, ⟨"r".toList, .scalar, some (.number (1 / 10))⟩,
   ⟨"alpha".toList, .scalar, some (.number (2 / 10))⟩, ⟨"epsilon".toList, .scalar, some (.number (1 / 100000))⟩]

/-- The arguments of `sce_merge`, sce.py:19-24. -/
def sceArgs [Field K] : List (Arg K) :=
  [⟨"tensors".toList, .tensors, none⟩, ⟨"base_tensor".toList, .tensor, none⟩, ⟨"int8_mask".toList, .scalar, some (.number 0)⟩,
   ⟨"select_topk".toList, .scalar, some (.number 1)⟩]

end

/-! ## The methods -/

/-- What the methods do not determine: the tools of sparsification, the order in which python iterates over a set of models, the entries
`arcee_fusion` samples and those `torch.topk` takes among equals - all may differ from tensor to tensor.
[sparsify.py:23-175, easy_define.py:143-150, arcee_fusion.py:22-37, sce.py:60] -/
structure Chance where
  tools : Tools ℝ
  order : Str → List Ref → List Ref
  sample1 : Str → List ℝ → List ℝ
  sample2 : Str → List ℝ → List ℝ
  topk : Str → (Nat → ℝ) → Nat → List Nat

/-- The result of a method that always gives a tensor.  [graph.py:70] -/
def given (r : Except Tensor.Err (Tensor.Tensor ℝ)) : Except MethodErr (Option (Tensor.Tensor ℝ)) :=
  match r with
  | .error e => .error (.merge e)
  | .ok x => .ok (some x)

noncomputable section

/-- `NuSlerpMerge.make_task(...)` and executing it, nuslerp.py:35-82, 109-128.  (The number of models is checked before the weights are used;
here both are the same for what is refused.) -/
def nuslerpMethod (v : View ℝ) (ts : List (Ref × Tensor.Tensor ℝ)) : Except MethodErr (Option (Tensor.Tensor ℝ)) :=
  match asBool (v.value "nuslerp_row_wise".toList), asBool (v.value "nuslerp_flatten".toList) with
  | some rowWise, some flatten =>
    if ts.length = 1 ∨ ts.all (fun e => decide (some e.1 = v.base) || (asNumber (v.valueOf e.1 "weight".toList)).isSome) then
      given (Sphere.nuslerpTask v.weight.isEmbed flatten rowWise v.base (fun m => (asNumber (v.valueOf m "weight".toList)).getD 0) ts)
    else .error .badParameter
  | _, _ => .error .badParameter

/-- `ModelStockMerge.make_task(...)` and executing it, model_stock.py:22-99, 123-138.  Without a base model the field
`base_model: ModelReference` refuses `None`. -/
def modelStockMethod (v : View ℝ) (ts : List (Ref × Tensor.Tensor ℝ)) : Except MethodErr (Option (Tensor.Tensor ℝ)) :=
  match v.base, asBool (v.value "filter_wise".toList) with
  | some b, some filterWise =>
    match Sphere.modelStock v.weight.isEmbed v.weight.optional filterWise b ts with
    | .error e => .error (.merge e)
    | .ok r => .ok r
  | _, _ => .error .badParameter

/-- `ArceeFusionMerge.make_task(...)` and executing it, arcee_fusion.py:60-98, 125-134. -/
def arceeMethod (ch : Chance) (v : View ℝ) (ts : List (Ref × Tensor.Tensor ℝ)) : Except MethodErr (Option (Tensor.Tensor ℝ)) :=
  match v.base with
  | none => .error .badParameter
  | some b => given (Sphere.arceeFusion (ch.sample1 v.weight.name) (ch.sample2 v.weight.name) v.weight.isEmbed b ts)

/-- `KarcherMerge.make_task(...)` and executing it, karcher.py:30-57, 88-107. -/
def karcherMethod (v : View ℝ) (ts : List (Ref × Tensor.Tensor ℝ)) : Except MethodErr (Option (Tensor.Tensor ℝ)) :=
  match asCount (v.value "max_iter".toList), asNumber (v.value "tol".toList) with
  | some n, some tol => given (Sphere.karcherTask v.weight.isEmbed n tol ts)
  | _, _ => .error .badParameter

/-- A decorated method: making the task and `_execute`, easy_define.py:111-195.  A required base model cannot be `None` (114-116).  `key` is
the name of its parameter per model, if any; `func` gets the tensors, the base tensor and the values of that parameter. -/
def decoratedMethod (sig : Merge.Signature) (key : Option Str) (ch : Chance)
    (func : View ℝ → List (Tensor.Tensor ℝ) → Option (Tensor.Tensor ℝ) → List ℝ → Except MethodErr (Option (Tensor.Tensor ℝ)))
    (v : View ℝ) (ts : List (Ref × Tensor.Tensor ℝ)) : Except MethodErr (Option (Tensor.Tensor ℝ)) :=
  if sig.useBase = true ∧ sig.requireBase = true ∧ v.base = none then .error .badParameter
  else
    match Merge.easyExecute sig (ch.order v.weight.name (ts.map Prod.fst)) v.base ts (fun m => match key with
        | none => some 0
        | some k => asNumber (v.valueOf m k)) with
    | .error e => .error (.merge e)
    | .ok (_, xs, bt, ps) => func v xs bt ps

/-- `torch.stack` and the rest of `multislerp`, multislerp.py:16-99; tensors of different shapes cannot be stacked. -/
def multislerpTensors (normalizeWeights : Bool) (eps : ℝ) (base : Option (Tensor.Tensor ℝ)) (ts : List (Tensor.Tensor ℝ)) (ws : List ℝ) :
    Except Tensor.Err (Tensor.Tensor ℝ) :=
  match ts with
  | [] => .error .count
  | [x] => .ok x
  | x :: rest =>
    if rest.all (fun y => y.shape = x.shape) ∧ (base.all (fun b => b.shape = x.shape)) then
      match Sphere.multislerp x.numel (base.map (·.get)) normalizeWeights eps (ws.zip ((x :: rest).map (·.get))) with
      | .error e => .error e
      | .ok r => .ok ⟨x.shape, r⟩
    else .error .shape

/-- What a decorated function is: it gets what was set, the tensors, the base tensor and the values of its parameter per model.
[easy_define.py:152-166] -/
abbrev Func := View ℝ → List (Tensor.Tensor ℝ) → Option (Tensor.Tensor ℝ) → List ℝ → Except MethodErr (Option (Tensor.Tensor ℝ))

/-- `multislerp` with its arguments, multislerp.py:16-99. -/
def multislerpFunc : Func := fun v xs bt ws =>
  match asNumber (v.value "eps".toList) with
  | some eps => given (multislerpTensors (asTruth (v.value "normalize_weights".toList)) eps bt xs ws)
  | none => .error .badParameter

/-- `nearswap_merge` with its arguments, nearswap.py:16-31. -/
def nearswapFunc : Func := fun v xs bt _ =>
  match bt, asNumber (v.value "t".toList) with
  | some b, some t => given (Merge.nearswap xs b t)
  | _, _ => .error .badParameter

/-- `ram_merge` with its arguments, ram.py:16-38. -/
def ramFunc : Func := fun v xs bt _ =>
  match bt, asNumber (v.value "epsilon".toList) with
  | some b, some epsilon => given (Merge.ram xs b epsilon)
  | _, _ => .error .badParameter

/-- `ramplus_tl_merge` with its arguments, ram.py:46-75. -/
def ramplusFunc : Func := fun v xs bt _ =>
  match bt, asNumber (v.value "r".toList), asNumber (v.value "alpha".toList), asNumber (v.value "epsilon".toList) with
  | some b, some r, some alpha, some epsilon => given (Merge.ramPlus xs b r alpha epsilon)
  | _, _, _, _ => .error .badParameter

/-- `sce_merge` with its arguments, sce.py:19-52. -/
def sceFunc (ch : Chance) : Func := fun v xs bt _ =>
  match bt, asNumber (v.value "select_topk".toList) with
  | some b, some k => given (Merge.sce (ch.topk v.weight.name) xs b k)
  | _, _ => .error .badParameter

/-- `multislerp` as a method, multislerp.py:11-99. -/
def multislerpMethod (ch : Chance) : View ℝ → List (Ref × Tensor.Tensor ℝ) → Except MethodErr (Option (Tensor.Tensor ℝ)) :=
  decoratedMethod ⟨true, false, false⟩ (some "weight".toList) ch multislerpFunc

/-- `nearswap` as a method, nearswap.py:11-31. -/
def nearswapMethod (ch : Chance) : View ℝ → List (Ref × Tensor.Tensor ℝ) → Except MethodErr (Option (Tensor.Tensor ℝ)) :=
  decoratedMethod ⟨true, true, false⟩ none ch nearswapFunc

/-- `ram` as a method, ram.py:11-38. -/
def ramMethod (ch : Chance) : View ℝ → List (Ref × Tensor.Tensor ℝ) → Except MethodErr (Option (Tensor.Tensor ℝ)) :=
  decoratedMethod ⟨true, true, false⟩ none ch ramFunc

/-- `ramplus_tl` as a method, ram.py:41-75. -/
def ramplusMethod (ch : Chance) : View ℝ → List (Ref × Tensor.Tensor ℝ) → Except MethodErr (Option (Tensor.Tensor ℝ)) :=
  decoratedMethod ⟨true, true, false⟩ none ch ramplusFunc

/-- `sce` as a method, sce.py:14-52. -/
def sceMethod (ch : Chance) : View ℝ → List (Ref × Tensor.Tensor ℝ) → Except MethodErr (Option (Tensor.Tensor ℝ)) :=
  decoratedMethod ⟨true, true, false⟩ none ch (sceFunc ch)

/-! ## The registry -/

/-- A merge method: its name, its parameters, and making and executing its task.  [merge_methods/base.py:44-69] -/
structure Method where
  name : Str
  params : List (ParamDef ℝ)
  tensorParams : List (ParamDef ℝ)
  task : Planned ℝ → List (Ref × Tensor.Tensor ℝ) → Except MethodErr (Option (Tensor.Tensor ℝ))

/-- `STATIC_MERGE_METHODS`, registry.py:21-101, with the parameters of linear.py:74-81, slerp.py:73-75, nuslerp.py:91-106, passthrough.py:47-49,
model_stock.py:117-120, arcee_fusion.py:122-123, karcher.py:81-86. -/
def staticMethods (ch : Chance) : List Method :=
  [⟨"linear".toList, [⟨"normalize".toList, false, some (flag true)⟩], [⟨"weight".toList, true, none⟩], linearTask⟩,
   ⟨"slerp".toList, [⟨"t".toList, true, none⟩], [], slerpMethod⟩,
   ⟨"nuslerp".toList, [⟨"nuslerp_row_wise".toList, false, some (flag false)⟩, ⟨"nuslerp_flatten".toList, false, some (flag true)⟩],
    [⟨"weight".toList, true, none⟩], fun p => nuslerpMethod (viewOf p)⟩,
   ⟨"passthrough".toList, [], [⟨"scale".toList, false, none⟩], passthroughTask⟩,
   ⟨"model_stock".toList, [⟨"filter_wise".toList, false, some (flag false)⟩], [], fun p => modelStockMethod (viewOf p)⟩,
   ⟨"arcee_fusion".toList, [], [], fun p => arceeMethod ch (viewOf p)⟩,
   ⟨"karcher".toList, [⟨"max_iter".toList, false, some (.num 10)⟩, ⟨"tol".toList, false, some (.num (1 / 100000))⟩], [],
    fun p => karcherMethod (viewOf p)⟩] ++
  gtaVariants.map (fun g => ⟨g.name, g.params, g.tensorParams, gtaMethod g ch.tools⟩)

/-- A decorated function in the registry: its parameters are those found in its arguments; a function that is refused is not there.
[easy_define.py:197-226] -/
def decorated (name : Str) (args : List (Arg ℝ)) (task : View ℝ → List (Ref × Tensor.Tensor ℝ) → Except MethodErr (Option (Tensor.Tensor ℝ))) :
    List Method :=
  match register args with
  | .error _ => []
  | .ok d => [⟨name, d.params, d.tensorParams, fun p => task (viewOf p)⟩]

/-- Adding a method to the dictionary, easy_define.py:225: one with the same name is replaced. -/
def insertMethod (reg : List Method) (m : Method) : List Method :=
  if reg.any (fun x => decide (x.name = m.name)) then reg.map (fun x => if x.name = m.name then m else x) else reg ++ [m]

/-- `REGISTERED_MERGE_METHODS` after the imports of merge_methods/__init__.py:4-7. -/
def registry (ch : Chance) : List Method :=
  (decorated "multislerp".toList multislerpArgs (multislerpMethod ch) ++ decorated "nearswap".toList nearswapArgs (nearswapMethod ch) ++
    decorated "ram".toList ramArgs (ramMethod ch) ++ decorated "ramplus_tl".toList ramplusArgs (ramplusMethod ch) ++
    decorated "sce".toList sceArgs (sceMethod ch)).foldl insertMethod ((staticMethods ch).foldl insertMethod [])

/-- `merge_methods.get`, merge_methods/__init__.py:15-18. -/
def getMethod (ch : Chance) (name : Str) : Option Method := (registry ch).find? (fun m => decide (m.name = name))

end

end Verif.WholeMerge
