import Verif.Model.Tensor
import Mathlib.Algebra.Order.Field.Basic
import Mathlib.Algebra.Order.Floor.Ring
import Mathlib.Algebra.BigOperators.Group.List.Basic

/-! # Merge methods that need only field operations (`/repo/mergekit/merge_methods`)

The gathered tensors are a dictionary in insertion order, keyed by models of a type `M`. -/

namespace Verif.Merge

open Verif.Tensor

section
variable {K : Type} [Field K] [LinearOrder K]

/-- Entry `i` of a weighted sum over a stack of tensors: `(weights * tensors).sum(dim=0)`.  [merge_methods/linear.py:32-57, merge_methods/generalized_task_arithmetic.py:119-184] -/
def wsum (ts : List (K × Tensor K)) (i : Nat) : K := (ts.map (fun e => e.1 * e.2.get i)).sum

/-- `LinearMergeTask.execute`, linear.py:32-57. -/
def linear {M : Type} (isEmbed normalize : Bool) (weight : M → K) (tensors : List (M × Tensor K)) :
    Except Err (Tensor K) :=
  let ts := rectify isEmbed (tensors.map Prod.snd)
  let ws := tensors.map (fun e => weight e.1)
  match ts with
  | [] => .error .shape
  | t :: rest =>
    if rest.all (fun x => x.shape = t.shape) then
      if normalize then
        if ws.sum = 0 then .error .nonFinite
        else .ok ⟨t.shape, fun i => wsum (ws.zip (t :: rest)) i / ws.sum⟩
      else .ok ⟨t.shape, fun i => wsum (ws.zip (t :: rest)) i⟩
    else .error .shape

/-- `PassthroughMergeTask.execute`, passthrough.py:25-34. -/
def passthrough {M : Type} (scale : M → Option K) (tensors : List (M × Tensor K)) : Except Err (Tensor K) :=
  match tensors with
  | [(m, t)] =>
    match scale m with
    | none => .ok t
    | some s => .ok ⟨t.shape, fun i => t.get i * s⟩
  | _ => .error .count

/-- `x.clamp(min=lo, max=hi)`.  [merge_methods/nearswap.py:11-30] -/
def clamp (lo hi x : K) : K := min (max x lo) hi

/-- `nearswap_merge`, nearswap.py:16-30, on the tensors without the base. -/
def nearswap (tensors : List (Tensor K)) (base : Tensor K) (t : K) : Except Err (Tensor K) :=
  match tensors with
  | [] => .ok base
  | [b] =>
    map2 (fun x y =>
      let w := clamp 0 1 (t / max |x - y| (1 / 1000000))
      w * y + (1 - w) * x) base b
  | _ => .error .count

/-! ## Generalized task arithmetic -/

/-- `get_task_vectors`, generalized_task_arithmetic.py:201-227: the loop over the models; pairs of model and delta. -/
def taskVectors {M : Type} [DecidableEq M] (isEmbed : Bool) (baseModel : M) (base : Tensor K) :
    List (M × Tensor K) → Except Err (List (M × Tensor K))
  | [] => .ok []
  | (m, x) :: rest =>
    if m = baseModel then taskVectors isEmbed baseModel base rest
    else if x.shape ≠ base.shape ∧ isEmbed = false then taskVectors isEmbed baseModel base rest
    else
      let x' : Option (Tensor K) :=
        if x.shape = base.shape then some x
        else if base.shape.length = 2 then submatrix x (base.shape.getD 0 0) (base.shape.getD 1 0) else none
      match x' with
      | none => .error .shape
      | some x' =>
        match map2 (fun a b => a - b) x' base with
        | .error e => .error e
        | .ok d =>
          match taskVectors isEmbed baseModel base rest with
          | .error e => .error e
          | .ok ds => .ok ((m, d) :: ds)

/-- `torch.sign`.  [merge_methods/generalized_task_arithmetic.py:230-254] -/
def sgn (x : K) : K := if 0 < x then 1 else if x < 0 then -1 else 0

/-- The two methods of `get_mask`.  [merge_methods/generalized_task_arithmetic.py:230-254] -/
inductive Consensus where
  | sum | count
deriving DecidableEq

/-- `majority_sign` at an entry, generalized_task_arithmetic.py:243-252; `ds` are the entries of the deltas there. -/
def majority (method : Consensus) (ds : List K) : K :=
  match method with
  | .sum => if 0 ≤ ds.sum then 1 else -1
  | .count => if 0 ≤ (ds.map sgn).sum then 1 else -1

/-- `get_mask` at an entry, generalized_task_arithmetic.py:230-254. -/
def mask (method : Consensus) (ds : List K) : List Bool := ds.map (fun d => decide (sgn d = majority method ds))

/-- A mask as numbers.  [merge_methods/generalized_task_arithmetic.py:230-254] -/
def ofBool (b : Bool) : K := if b then 1 else 0

/-- Mixing at an entry, generalized_task_arithmetic.py:160-182: weights and delta entries to `mixed_delta`. -/
def mix (consensus : Option Consensus) (normalize : Bool) (lam : K) (es : List (K × K)) : K :=
  let weighted := es.map (fun e => e.2 * e.1)
  let numDen : K × K :=
    match consensus with
    | some method =>
      let mk := mask method weighted
      let den := ((es.zip mk).map (fun e => e.1.1 * ofBool e.2)).sum
      (((weighted.zip mk).map (fun e => e.1 * ofBool e.2)).sum, if den = 0 then 1 else den)
    | none =>
      let den := (es.map Prod.fst).sum
      (weighted.sum, if |den| < 1 / 100000000 then 1 else den)
  let m := if normalize then numDen.1 / numDen.2 else numDen.1
  if lam ≠ 1 then m * lam else m

/-- Applying the sparsification to every delta, generalized_task_arithmetic.py:135-150. -/
def sparsifyAll {M : Type} (sp : M → Tensor K → Except Err (Tensor K)) :
    List (M × Tensor K) → Except Err (List (M × Tensor K))
  | [] => .ok []
  | (m, d) :: rest =>
    match sp m d with
    | .error e => .error e
    | .ok d' =>
      match sparsifyAll sp rest with
      | .error e => .error e
      | .ok ds => .ok ((m, d') :: ds)

/-- `d[k]` for a dictionary keyed by models.  [merge_methods/generalized_task_arithmetic.py:119-227] -/
def lookup {M V : Type} [DecidableEq M] (d : List (M × V)) (m : M) : Option V :=
  (d.find? (fun e => decide (e.1 = m))).map Prod.snd

/-- `GTATask.execute`, generalized_task_arithmetic.py:119-184; `sp` is the sparsification with the model's parameters (the identity for
methods without one).  `rescale` and `int8_mask` are part of `sp` or without effect in exact arithmetic. -/
def gta {M : Type} [DecidableEq M] (consensus : Option Consensus) (isEmbed normalize : Bool) (lam : K) (weight : M → K)
    (sp : M → Tensor K → Except Err (Tensor K)) (baseModel : M) (tensors : List (M × Tensor K)) :
    Except Err (Tensor K) :=
  match lookup tensors baseModel with
  | none => .error .noBase
  | some base =>
    match taskVectors isEmbed baseModel base tensors with
    | .error e => .error e
    | .ok [] => .ok base
    | .ok (tv :: tvs) =>
      match sparsifyAll sp (tv :: tvs) with
      | .error e => .error e
      | .ok ds =>
        .ok ⟨base.shape, fun i => base.get i + mix consensus normalize lam (ds.map (fun e => (weight e.1, e.2.get i)))⟩

/-! ## RAM -/

/-- `t - base_tensor` for all tensors.  [merge_methods/ram.py:78-103, merge_methods/sce.py:14-44] -/
def subtractAll (base : Tensor K) : List (Tensor K) → Except Err (List (Tensor K))
  | [] => .ok []
  | t :: ts =>
    match map2 (fun a b => a - b) t base with
    | .error e => .error e
    | .ok d =>
      match subtractAll base ts with
      | .error e => .error e
      | .ok ds => .ok (d :: ds)

/-- `nonzero_mask` at an entry, ram.py:94. -/
def changed (epsilon x : K) : Bool := decide (epsilon < |x|)

/-- `contrib_counts` at an entry, ram.py:98. -/
def contrib (epsilon : K) (xs : List K) : Nat := xs.countP (changed epsilon)

/-- One model's contribution at an entry, ram.py:32-36 and 69-73 (`lam` is 1 for `ram`). -/
def ramTerm (epsilon lam : K) (count : Nat) (x : K) : K :=
  let z := x * ofBool (changed epsilon x)
  z * ofBool (decide (count = 1)) * lam + z * ofBool (decide (count > 1)) / (max count 1 : Nat)

/-- `ram_merge`, ram.py:16-38. -/
def ram (tensors : List (Tensor K)) (base : Tensor K) (epsilon : K) : Except Err (Tensor K) :=
  match tensors with
  | [] => .ok base
  | _ =>
    match subtractAll base tensors with
    | .error e => .error e
    | .ok ds => .ok ⟨base.shape, fun i =>
        let xs := ds.map (fun d => d.get i)
        base.get i + (xs.map (ramTerm epsilon 1 (contrib epsilon xs))).sum⟩

/-- Number of entries of delta `d` that satisfy `p` and are changed, ram.py:64-65. -/
def countEntries (epsilon : K) (ds : List (Tensor K)) (p : Nat → Bool) (n : Nat) (d : Tensor K) : Nat :=
  (List.range n).countP (fun i => changed epsilon (d.get i) && p (contrib epsilon (ds.map (fun d => d.get i))))

/-- `lambda_` of a model, ram.py:64-67, where the quotient is not 0 / 0 (see `ramPlus`); an infinite quotient is clamped to `alpha`. -/
def ramLambda (r alpha epsilon : K) (ds : List (Tensor K)) (n : Nat) (d : Tensor K) : K :=
  let shared := countEntries epsilon ds (fun c => decide (c > 1)) n d
  let unique := countEntries epsilon ds (fun c => decide (c = 1)) n d
  if max (unique : K) epsilon = 0 then 1 + r * alpha
  else 1 + r * clamp 0 alpha ((shared : K) / max (unique : K) epsilon)

/-- Is the quotient of `ramLambda` 0 / 0?  [merge_methods/ram.py:41-75] -/
def ramUndefined (epsilon : K) (ds : List (Tensor K)) (n : Nat) (d : Tensor K) : Bool :=
  decide (max (countEntries epsilon ds (fun c => decide (c = 1)) n d : K) epsilon = 0) &&
    decide (countEntries epsilon ds (fun c => decide (c > 1)) n d = 0)

/-- `ramplus_tl_merge`, ram.py:46-75.  A model whose `lambda_` is 0 / 0 makes everything NaN. -/
def ramPlus (tensors : List (Tensor K)) (base : Tensor K) (r alpha epsilon : K) : Except Err (Tensor K) :=
  match tensors with
  | [] => .ok base
  | _ =>
    match subtractAll base tensors with
    | .error e => .error e
    | .ok ds =>
      if ds.any (ramUndefined epsilon ds base.numel) then .error .nonFinite
      else .ok ⟨base.shape, fun i =>
        let xs := ds.map (fun d => d.get i)
        base.get i + (ds.map (fun d =>
          ramTerm epsilon (ramLambda r alpha epsilon ds base.numel d) (contrib epsilon xs) (d.get i))).sum⟩

/-! ## SCE -/

/-- `torch.var(..., unbiased=False)` over the stack, at an entry.  [merge_methods/sce.py:47-72] -/
def variance (xs : List K) : K :=
  let mean := xs.sum / xs.length
  (xs.map (fun x => (x - mean) * (x - mean))).sum / xs.length

variable [FloorRing K]

/-- The result of `sce_mask`, sce.py:55-72: zeros or ones of the shape of the whole stack, or a selection of entries of one tensor. -/
inductive SceMask where
  | stackZeros
  | stackOnes
  | entries (sel : Nat → Bool)

/-- `sce_mask`, sce.py:55-72.  `topk` stands for `torch.topk(...).indices`: positions of the `k` largest. -/
def sceMask (topk : (Nat → K) → Nat → List Nat) (ds : List (Tensor K)) (n : Nat) (density : K) : SceMask :=
  if density ≤ 0 then .stackZeros
  else if density ≥ 1 then .stackOnes
  else
    let var := fun i => variance (ds.map (fun d => d.get i))
    let nonzero := (List.range n).countP (fun i => decide (var i ≠ 0))
    let k := ⌊(nonzero : K) * density⌋.toNat
    if k = 0 then .stackZeros
    else .entries (fun i => decide (i ∈ topk (fun i => |var i|) k))

/-- `sce_weight`, sce.py:47-52: the normalized mean squares (tensors with `n` entries). -/
def sceWeights (ds : List (Tensor K)) (n : Nat) : List K :=
  let ws := ds.map (fun d => ((List.range n).map (fun i => d.get i * d.get i)).sum / (n : K))
  if |ws.sum| < 1 / 1000000 then ds.map (fun _ => 1 / (ds.length : K)) else ws.map (fun w => w / ws.sum)

/-- sce.py:34-44 at an entry: `xs` are the (masked) task vectors there, `ws` the weights. -/
def sceEntry (ws xs : List K) : K :=
  let mk := mask .sum xs
  let erased := (ws.zip mk).map (fun e => e.1 * ofBool e.2)
  ((xs.zip erased).map (fun e => e.1 * e.2)).sum / max erased.sum (1 / 1000000)

/-- `sce_merge`, sce.py:19-44.  When the mask has the shape of the whole stack, `task_vectors * mask.unsqueeze(0)` has an additional leading
dimension of size 1 (broadcasting), which the sum over dimension 0 removes: the result has the shape of the stack. -/
def sce (topk : (Nat → K) → Nat → List Nat) (tensors : List (Tensor K)) (base : Tensor K) (selectTopk : K) :
    Except Err (Tensor K) :=
  match tensors with
  | [] => .ok base
  | _ =>
    match subtractAll base tensors with
    | .error e => .error e
    | .ok ds =>
      let plain := fun (sel : Nat → Bool) =>
        let ms : List (Tensor K) := ds.map (fun d => ⟨d.shape, fun i => d.get i * ofBool (sel i)⟩)
        let ws := sceWeights ms base.numel
        (⟨base.shape, fun i => base.get i + sceEntry ws (ms.map (fun d => d.get i))⟩ : Tensor K)
      -- base + (a stack of zeros, or of the deltas themselves, each its own merge)
      let stacked := fun (c : K) =>
        (⟨ds.length :: base.shape, fun i =>
          base.get (i % base.numel) + sceEntry [1] [((ds.map (fun d => d.get (i % base.numel))).getD (i / base.numel) 0) * c]⟩ :
          Tensor K)
      if selectTopk < 1 then
        match sceMask topk ds base.numel selectTopk with
        | .stackZeros => .ok (stacked 0)
        | .stackOnes => .ok (stacked 1)
        | .entries sel => .ok (plain sel)
      else .ok (plain (fun _ => true))

end

/-! ## Methods defined by the decorator -/

/-- What `__merge_method` finds in the signature, easy_define.py:32-109: is there a `base_tensor` argument, is it required. -/
structure Signature where
  useBase : Bool
  requireBase : Bool
  usesBaseModel : Bool

/-- `getattr(self, "base_model", None)`, easy_define.py:144: `base_model` is a field only if the signature has use for it (113-116). -/
def easyBase {M : Type} (sig : Signature) (baseModel : Option M) : Option M :=
  if sig.usesBaseModel || sig.useBase then baseModel else none

/-- `model_refs`, easy_define.py:143-150.  `order` is the order in which python iterates over the set of models. -/
def easyRefs {M : Type} [DecidableEq M] (sig : Signature) (order : List M) (baseModel : Option M) : List M :=
  match easyBase sig baseModel with
  | none => order
  | some b =>
    if b ∈ order then
      if sig.useBase then order.filter (fun m => decide (m ≠ b)) else b :: order.filter (fun m => decide (m ≠ b))
    else order

/-- `base_tensor`, easy_define.py:151. -/
def easyBaseTensor {M V : Type} [DecidableEq M] (sig : Signature) (baseModel : Option M) (tensors : List (M × V)) : Option V :=
  (easyBase sig baseModel).bind (lookup tensors)

/-- `_execute`, easy_define.py:142-166: the arguments `func` is called with: the models in the order of `tensors` (not passed, but needed to say
what is passed), the tensors, the base tensor, and the values of a per-model parameter. -/
def easyExecute {M V P : Type} [DecidableEq M] (sig : Signature) (order : List M) (baseModel : Option M) (tensors : List (M × V))
    (param : M → Option P) : Except Err (List M × List V × Option V × List P) :=
  match (easyRefs sig order baseModel).mapM (lookup tensors) with
  | none => .error .key
  | some ts =>
    if sig.useBase && sig.requireBase && (easyBaseTensor sig baseModel tensors).isNone then .error .noBase
    else
      match (easyRefs sig order baseModel).mapM param with
      | none => .error .key
      | some ps => .ok (easyRefs sig order baseModel, ts, (if sig.useBase then easyBaseTensor sig baseModel tensors else none), ps)

end Verif.Merge
