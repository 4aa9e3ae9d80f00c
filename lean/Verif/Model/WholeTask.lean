import Verif.Model.WholeMerge
import Verif.Model.Sparsify

/-! # Task arithmetic and its relatives as the planner's parameters reach them
(`/repo/mergekit/merge_methods/generalized_task_arithmetic.py`, `registry.py`) -/

namespace Verif.WholeMerge

open Verif.ModelRef (Str Ref)
open Verif.Plan (Planned ParamDef)
open Verif.Config (Scalar)

deriving instance DecidableEq for Sparsify.Method

section
variable {K : Type} [Field K] [LinearOrder K]

/-- `GeneralizedTaskArithmeticMerge`, generalized_task_arithmetic.py:28-35 (without the names for model cards). -/
structure GtaVariant where
  name : Str
  consensus : Option Merge.Consensus
  sparsification : Option Sparsify.Method
  normalize : Bool
  rescale : Bool

/-- The variants of `STATIC_MERGE_METHODS`, registry.py:29-100. -/
def gtaVariants : List GtaVariant :=
  [⟨"task_arithmetic".toList, none, none, false, false⟩,
   ⟨"ties".toList, some .sum, some .magnitude, true, false⟩,
   ⟨"dare_ties".toList, some .sum, some .random, false, true⟩,
   ⟨"dare_linear".toList, none, some .random, false, true⟩,
   ⟨"breadcrumbs".toList, none, some .magnitudeOutliers, false, false⟩,
   ⟨"breadcrumbs_ties".toList, some .sum, some .magnitudeOutliers, false, false⟩,
   ⟨"della".toList, some .sum, some .dellaMagprune, true, true⟩,
   ⟨"della_linear".toList, none, some .dellaMagprune, false, true⟩]

/-- A python bool as a parameter value: bools are numbers.  [generalized_task_arithmetic.py:47-58] -/
def flag (b : Bool) : Scalar K := .num (if b then 1 else 0)

/-- `parameters`, generalized_task_arithmetic.py:47-58. -/
def GtaVariant.params (g : GtaVariant) : List (ParamDef K) :=
  [⟨"int8_mask".toList, false, some (flag false)⟩, ⟨"normalize".toList, false, some (flag g.normalize)⟩,
   ⟨"rescale".toList, false, some (flag g.rescale)⟩, ⟨"lambda".toList, false, some (.num 1)⟩]

/-- `tensor_parameters`, generalized_task_arithmetic.py:60-79. -/
def GtaVariant.tensorParams (g : GtaVariant) : List (ParamDef K) :=
  [⟨"weight".toList, true, none⟩, ⟨"density".toList, false, some (.num 1)⟩] ++
  (if g.sparsification = some .magnitudeOutliers then [⟨"gamma".toList, false, some (.num (1 / 100))⟩] else []) ++
  (if g.sparsification = some .dellaMagprune then [⟨"epsilon".toList, false, some (.num (15 / 100))⟩] else [])

/-- A value as the field `int8_mask: bool` or `normalize: bool` of the task takes it, generalized_task_arithmetic.py:107-108: 0 and 1 only.
(Texts such as "true" are converted by pydantic; they are refused here.) -/
def flagOf (p : Planned K) (key : Str) : Option Bool :=
  match lookup p.params key with
  | some (some (.num x)) => if x = 0 then some false else if x = 1 then some true else none
  | _ => none

/-- `if parameters["rescale"]`, generalized_task_arithmetic.py:97. -/
def truthOf (p : Planned K) (key : Str) : Bool :=
  match lookup p.params key with
  | some (some (.num x)) => decide (x ≠ 0)
  | some (some (.str s)) => decide (s ≠ [])
  | _ => false

/-- A value as the field `lambda_: float` takes it, generalized_task_arithmetic.py:109. -/
def numberOf (p : Planned K) (key : Str) : Option K :=
  match lookup p.params key with
  | some (some (.num x)) => some x
  | _ => none

/-- A value of a model as a keyword argument of `sparsify`, with the default of that function if the method has no such parameter,
generalized_task_arithmetic.py:137-150; what is no number makes the arithmetic there raise. -/
def keywordOf (p : Planned K) (m : Ref) (key : Str) (default : Option K) : Except Tensor.Err K :=
  match (lookup p.tensorParams m).bind (fun d => lookup d key) with
  | none => match default with
    | some x => .ok x
    | none => .error .key
  | some (some (.num x)) => .ok x
  | some _ => .error .value

/-- What sorts, draws random bits and takes roots in `sparsify`; the random bits may be different for every output tensor and model.
[sparsify.py:23-175] -/
structure Tools (K : Type) where
  sqrt : K → K
  sortDesc : (Nat → K) → Nat → List Nat
  sortAsc : (Nat → K) → Nat → List Nat
  sample : Str → Ref → (Nat → K) → Nat → Bool

variable [FloorRing K]

/-- The sparsification of a model's change, generalized_task_arithmetic.py:135-150. -/
def sparsifyOf (g : GtaVariant) (tools : Tools K) (p : Planned K) (m : Ref) (d : Tensor.Tensor K) : Except Tensor.Err (Tensor.Tensor K) :=
  match g.sparsification with
  | none => .ok d
  | some kind =>
    match keywordOf p m "density".toList none, keywordOf p m "gamma".toList (some 0), keywordOf p m "epsilon".toList (some 0) with
    | .ok density, .ok gamma, .ok epsilon =>
      Sparsify.sparsify tools.sqrt tools.sortDesc tools.sortAsc (tools.sample p.weight.name m) d density kind gamma epsilon
        (if truthOf p "rescale".toList then some .l1 else none)
    | _, _, _ => .error .value

/-- `make_task(...)` and executing it, generalized_task_arithmetic.py:81-184.  Without a base model the field `base_model: ModelReference`
refuses `None`.  (Weights are checked for all models but the base; the code does so for those that are not skipped for their size.) -/
def gtaMethod (g : GtaVariant) (tools : Tools K) (p : Planned K) (ts : List (Ref × Tensor.Tensor K)) :
    Except MethodErr (Option (Tensor.Tensor K)) :=
  match p.baseModel, flagOf p "int8_mask".toList, flagOf p "normalize".toList, numberOf p "lambda".toList with
  | some b, some _, some normalize, some lam =>
    if ts.all (fun e => decide (e.1 = b) || (weightOf p e.1).isSome) then
      match Merge.gta g.consensus p.weight.isEmbed normalize lam (fun m => (weightOf p m).getD 0) (sparsifyOf g tools p) b ts with
      | .error e => .error (.merge e)
      | .ok x => .ok (some x)
    else .error .badParameter
  | _, _, _, _ => .error .badParameter

end

end Verif.WholeMerge
