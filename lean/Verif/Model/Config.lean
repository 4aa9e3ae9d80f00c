import Mathlib.Tactic.Common
import Mathlib.Algebra.Order.Floor.Ring
import Mathlib.Algebra.Order.Field.Basic
import Verif.Model.ModelRef

/-! # Merge configurations (`/repo/mergekit/config.py`)

Numbers are elements of an ordered field with floor (exact arithmetic instead of floating point). -/

namespace Verif.Config

open Verif.ModelRef (Str Ref)

/-- A scalar: number (booleans are the numbers 0 and 1, as in python) or string.  [config.py:16-24] -/
inductive Scalar (K : Type) where
  | num (x : K)
  | str (s : Str)
deriving DecidableEq

/-- `ConditionalParameter`, config.py:16-18. Its value is a scalar or a list of scalars. -/
structure Cond (K : Type) where
  value : Scalar K ⊕ List (Scalar K)
  filter : Option Str := none

/-- The elements a list setting may have.  [config.py:16-24] -/
inductive Elem (K : Type) where
  | scalar (s : Scalar K)
  | cond (c : Cond K)

/-- `ParameterSetting`, config.py:13, 21-23. -/
inductive Setting (K : Type) where
  | scalar (s : Scalar K)
  | list (es : List (Elem K))
  | cond (c : Cond K)

/-- How reading a setting or validating a configuration may fail.  [config.py:26-52, 78-82, 123-143, 204-251] -/
inductive Err where
  /-- "Unexpected setting value", config.py:51 -/
  | unexpected
  /-- IndexError -/
  | index
  /-- AttributeError: a scalar among conditional values has no `filter` -/
  | attribute
  /-- "Missing required parameter", config.py:250 -/
  | missing
deriving DecidableEq

section
variable {K : Type} [Field K] [LinearOrder K] [FloorRing K]

/-- python's `int(x)`: rounding towards zero.  [config.py:32-40] -/
def trunc (x : K) : Int := if 0 ≤ x then ⌊x⌋ else ⌈x⌉

/-- python indexing with negative indices counting from the end.  [config.py:32-40] -/
def pyIndex {α : Type} (l : List α) (i : Int) : Option α :=
  if 0 ≤ i then l[i.toNat]? else if -i ≤ l.length then l[(l.length + i).toNat]? else none

/-- The numeric values of a list of scalars, if all are numbers (config.py:32). -/
def allNums : List (Scalar K) → Option (List K)
  | [] => some []
  | .num x :: rest => (allNums rest).map (x :: ·)
  | .str _ :: _ => none

/-- The scalars of a list of elements, if all are scalars (config.py:39). -/
def allScalars : List (Elem K) → Option (List (Scalar K))
  | [] => some []
  | .scalar s :: rest => (allScalars rest).map (s :: ·)
  | .cond _ :: _ => none

/-- config.py:33-38. -/
def gradient (l : List K) (t : K) : Except Err K :=
  let scaled : K := t * ((l.length : K) - 1)
  let i0 := trunc scaled
  let i1 := min ((l.length : Int) - 1) (i0 + 1)
  let frac : K := scaled - i0
  match pyIndex l i0, pyIndex l i1 with
  | some a, some b => .ok ((1 - frac) * a + frac * b)
  | _, _ => .error .index

/-- config.py:31-40 for a list of scalars. -/
def evalScalars (l : List (Scalar K)) (t : K) : Except Err (Option (Scalar K)) :=
  match allNums l with
  | some xs =>
    match gradient xs t with
    | .ok v => .ok (some (.num v))
    | .error e => .error e
  | none =>
    match pyIndex l (trunc (t * ((l.length : K) - 1))) with
    | some s => .ok (some s)
    | none => .error .index

/-- python's `f in n` for strings.  [config.py:43-48] -/
def substr (f : Str) : Str → Bool
  | [] => f.isPrefixOf []
  | x :: xs => f.isPrefixOf (x :: xs) || substr f xs

/-- The filter test, config.py:43-47.  `tensor_name` may be absent; an empty name is falsy. -/
def matchesFilter (tensorName : Option Str) (c : Cond K) : Bool :=
  match c.filter with
  | none => true
  | some f =>
    if f = ['*'] then true
    else match tensorName with
      | none => false
      | some [] => false
      | some n => substr f n

/-- The loop over conditional values, config.py:42-49, 52. -/
def evalConds (tensorName : Option Str) (t : K) : List (Elem K) → Except Err (Option (Scalar K))
  | [] => .ok none
  | .scalar _ :: _ => .error .attribute
  | .cond c :: rest =>
    if matchesFilter tensorName c then
      match c.value with
      | .inl s => .ok (some s)
      | .inr l => evalScalars l t
    else evalConds tensorName t rest

/-- `evaluate_setting`, config.py:26-52. -/
def evaluateSetting (tensorName : Option Str) (s : Setting K) (t : K) : Except Err (Option (Scalar K)) :=
  match s with
  | .scalar x => .ok (some x)
  | .list es =>
    match allScalars es with
    | some l => evalScalars l t
    | none => evalConds tensorName t es
  | .cond _ => .error .unexpected

end

/-- Parameters of a section; an absent section is the empty list.  [config.py:55-100] -/
abbrev Params (K : Type) := List (Str × Setting K)

/-- `name in parameters` / `parameters[name]`.  [config.py:204-251] -/
def Params.get {K : Type} (p : Params K) (name : Str) : Option (Setting K) :=
  (p.find? (fun e => decide (e.1 = name))).map Prod.snd

/-- `InputSliceDefinition`, config.py:55-58. -/
structure InSlice (K : Type) where
  model : Ref
  start : Int
  stop : Int
  parameters : Params K := []

/-- `InputModelDefinition`, config.py:61-63. -/
structure InModel (K : Type) where
  model : Ref
  parameters : Params K := []

/-- `OutputSliceDefinition`, config.py:66-70 (`residual_weight` is not used anywhere). -/
structure OutSlice (K : Type) where
  sources : List (InSlice K)
  baseModel : Option Ref := none
  parameters : Params K := []

/-- `OutputModuleDefinition`, config.py:73-76. -/
structure OutModule (K : Type) where
  slices : Option (List (OutSlice K)) := none
  models : Option (List (InModel K)) := none
  parameters : Params K := []

/-- Truthiness of an optional list or dictionary.  [config.py:78-82, 123-137] -/
def truthy {α : Type} : Option (List α) → Bool
  | none => false
  | some [] => false
  | some (_ :: _) => true

/-- `OutputModuleDefinition.validate_inputs`, config.py:78-82. -/
def OutModule.valid {K : Type} (m : OutModule K) : Bool :=
  !(((!truthy m.slices) && (!truthy m.models)) || (truthy m.slices && truthy m.models))

/-- `MergeConfiguration`, config.py:85-99; the tokenizer settings only as "given or not", `merge_method`, `dtype`,
`chat_template` and `out_dtype` are left out (they are opaque here). -/
structure MergeConfig (K : Type) where
  modules : Option (List (String × OutModule K)) := none
  slices : Option (List (OutSlice K)) := none
  models : Option (List (InModel K)) := none
  baseModel : Option Ref := none
  tokenizerSource : Bool := false
  tokenizer : Bool := false
  parameters : Params K := []

/-- `MergeConfiguration.validate_inputs`, config.py:123-137. -/
def MergeConfig.validInputs {K : Type} (c : MergeConfig K) : Bool :=
  let n := (if truthy c.modules then 1 else 0) + (if truthy c.slices then 1 else 0) + (if truthy c.models then 1 else 0)
  !(n != 1)

/-- `MergeConfiguration.validate_tokenizer`, config.py:139-143. -/
def MergeConfig.validTokenizer {K : Type} (c : MergeConfig K) : Bool := !(c.tokenizerSource && c.tokenizer)

/-- The modules' own validation.  [config.py:78-82] -/
def MergeConfig.validModules {K : Type} (c : MergeConfig K) : Bool :=
  match c.modules with
  | none => true
  | some ms => ms.all (fun m => m.2.valid)

/-- Validation of a whole configuration: its modules first (they are built first), then the two validators.  [config.py:78-82, 123-143] -/
def MergeConfig.valid {K : Type} (c : MergeConfig K) : Bool :=
  c.validModules && c.validInputs && c.validTokenizer

/-- `referenced_models`, config.py:101-121, as a list with possible repetitions (the code collects a set). -/
def MergeConfig.referencedModels {K : Type} (c : MergeConfig K) : List Ref :=
  c.baseModel.toList ++ ((c.models.getD []).map (·.model)) ++
    ((c.slices.getD []).flatMap (fun s => s.sources.map (·.model))) ++
    ((c.modules.getD []).flatMap (fun m => ((m.2.models.getD []).map (·.model)) ++
      ((m.2.slices.getD []).flatMap (fun s => s.sources.map (·.model)))))

/-- `ConfigReader`, config.py:152-157. -/
structure Reader (K : Type) where
  config : MergeConfig K
  t : K
  tensorName : Option Str := none
  sliceOut : Option (OutSlice K) := none
  module : Option (OutModule K) := none

/-- `ConfigReader.base_model`, config.py:159-166. -/
def Reader.baseModel {K : Type} (r : Reader K) : Option Ref :=
  match r.sliceOut with
  | some s => match s.baseModel with
    | some b => some b
    | none => r.config.baseModel
  | none => r.config.baseModel

/-- `for_out_slice`, config.py:168-175. -/
def Reader.forOutSlice {K : Type} (r : Reader K) (s : OutSlice K) : Reader K := { r with sliceOut := some s }
/-- `for_tensor`, config.py:177-184. -/
def Reader.forTensor {K : Type} (r : Reader K) (n : Str) : Reader K := { r with tensorName := some n }
/-- `with_t`, config.py:186-193. -/
def Reader.withT {K : Type} (r : Reader K) (t : K) : Reader K := { r with t := t }
/-- `for_module`, config.py:195-202. -/
def Reader.forModule {K : Type} (r : Reader K) (m : OutModule K) : Reader K := { r with module := some m }

section
variable {K : Type} [Field K] [LinearOrder K] [FloorRing K]

/-- The loop over the sources of the slice, config.py:213-219; `none` if it falls through. -/
def Reader.fromSources (r : Reader K) (name : Str) (model : Ref) : List (InSlice K) → Except Err (Option (Scalar K))
  | [] => .ok none
  | s :: rest =>
    if s.model = model then
      match s.parameters.get name with
      | none => r.fromSources name model rest
      | some setting =>
        match evaluateSetting r.tensorName setting r.t with
        | .error e => .error e
        | .ok (some v) => .ok (some v)
        | .ok none => r.fromSources name model rest
    else r.fromSources name model rest

/-- `if parameters and name in parameters: ... if value is not None: return value`, config.py:221-226, 228-235, 237-244. -/
def Reader.fromParams (r : Reader K) (name : Str) (p : Params K) : Except Err (Option (Scalar K)) :=
  match p.get name with
  | none => .ok none
  | some setting => evaluateSetting r.tensorName setting r.t

/-- First attempt, and if that yields nothing the second.  [config.py:204-251] -/
def orElse {α : Type} (a : Except Err (Option α)) (b : Except Err (Option α)) : Except Err (Option α) :=
  match a with
  | .error e => .error e
  | .ok (some v) => .ok (some v)
  | .ok none => b

/-- config.py:246-251: what happens with the value found, or without one. -/
def finish {α : Type} (default : Option α) (required : Bool) : Except Err (Option α) → Except Err (Option α)
  | .error e => .error e
  | .ok (some v) => .ok (some v)
  | .ok none => if required then .error .missing else .ok default

/-- `ConfigReader.parameter`, config.py:204-251.  The result `none` can only be the default `none`. -/
def Reader.parameter (r : Reader K) (name : Str) (model : Option Ref) (default : Option (Scalar K)) (required : Bool) :
    Except Err (Option (Scalar K)) :=
  let fromSlice : Except Err (Option (Scalar K)) :=
    match r.sliceOut with
    | none => .ok none
    | some s =>
      orElse (match model with
        | none => .ok none
        | some m => r.fromSources name m s.sources) (r.fromParams name s.parameters)
  let fromModule : Except Err (Option (Scalar K)) :=
    match r.module with
    | none => .ok none
    | some m => r.fromParams name m.parameters
  finish default required (orElse fromSlice (orElse fromModule (r.fromParams name r.config.parameters)))

end

end Verif.Config
