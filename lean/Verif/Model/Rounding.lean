import Verif.Model.MergeMethods

/-! # Merge methods in floating point (`/repo/mergekit/merge_methods/{linear,generalized_task_arithmetic,nearswap,passthrough}.py`)

The same functions as in `MergeMethods`, with every operation followed by a rounding.  For 16 bit types torch computes in 32 bits and rounds the
result, which gives the same as rounding the exact result once; sums over several models may be accumulated in any order and in a wider type.
Infinities and NaNs from overflow are left out; a division by zero is reported as `nonFinite`. -/

namespace Verif.Rounding

open Verif.Tensor Verif.Merge

/-- How a data type computes: `rnd` is the number a result is rounded to, `sum` what `.sum(dim=0)` gives for the entries of a stack.
[merge_methods/linear.py:47-55, merge_methods/generalized_task_arithmetic.py:152-184] -/
structure Arith (K : Type) where
  rnd : K → K
  sum : List K → K

section
variable {K : Type} [Field K] [LinearOrder K] (A : Arith K)

/-- Entry of `(weights * tensors).sum(dim=0)`, linear.py:52. -/
def flWsum (ts : List (K × Tensor K)) (i : Nat) : K := A.sum (ts.map (fun e => A.rnd (e.1 * e.2.get i)))

/-- `LinearMergeTask.execute`, linear.py:32-57; the weights are converted to the data type (48). -/
def flLinear {M : Type} (isEmbed normalize : Bool) (weight : M → K) (tensors : List (M × Tensor K)) : Except Err (Tensor K) :=
  let ts := rectify isEmbed (tensors.map Prod.snd)
  let ws := tensors.map (fun e => A.rnd (weight e.1))
  match ts with
  | [] => .error .shape
  | t :: rest =>
    if rest.all (fun x => x.shape = t.shape) then
      if normalize then
        if A.sum ws = 0 then .error .nonFinite
        else .ok ⟨t.shape, fun i => A.rnd (flWsum A (ws.zip (t :: rest)) i / A.sum ws)⟩
      else .ok ⟨t.shape, fun i => flWsum A (ws.zip (t :: rest)) i⟩
    else .error .shape

/-- `PassthroughMergeTask.execute`, passthrough.py:25-34. -/
def flPassthrough {M : Type} (scale : M → Option K) (tensors : List (M × Tensor K)) : Except Err (Tensor K) :=
  match tensors with
  | [(m, t)] =>
    match scale m with
    | none => .ok t
    | some s => .ok ⟨t.shape, fun i => A.rnd (t.get i * s)⟩
  | _ => .error .count

/-- `nearswap_merge`, nearswap.py:16-30. -/
def flNearswap (tensors : List (Tensor K)) (base : Tensor K) (t : K) : Except Err (Tensor K) :=
  match tensors with
  | [] => .ok base
  | [b] =>
    map2 (fun x y =>
      let w := clamp 0 1 (A.rnd (t / max |A.rnd (x - y)| (1 / 1000000)))
      A.rnd (A.rnd (w * y) + A.rnd (A.rnd (1 - w) * x))) base b
  | _ => .error .count

/-- `get_task_vectors`, generalized_task_arithmetic.py:190-227. -/
def flTaskVectors {M : Type} [DecidableEq M] (isEmbed : Bool) (baseModel : M) (base : Tensor K) :
    List (M × Tensor K) → Except Err (List (M × Tensor K))
  | [] => .ok []
  | (m, x) :: rest =>
    if m = baseModel then flTaskVectors isEmbed baseModel base rest
    else if x.shape ≠ base.shape ∧ isEmbed = false then flTaskVectors isEmbed baseModel base rest
    else
      let x' : Option (Tensor K) :=
        if x.shape = base.shape then some x
        else if base.shape.length = 2 then submatrix x (base.shape.getD 0 0) (base.shape.getD 1 0) else none
      match x' with
      | none => .error .shape
      | some x' =>
        match map2 (fun a b => A.rnd (a - b)) x' base with
        | .error e => .error e
        | .ok d =>
          match flTaskVectors isEmbed baseModel base rest with
          | .error e => .error e
          | .ok ds => .ok ((m, d) :: ds)

/-- `majority_sign` at an entry, generalized_task_arithmetic.py:243-252; the sum of signs is exact. -/
def flMajority (method : Consensus) (ds : List K) : K :=
  match method with
  | .sum => if 0 ≤ A.sum ds then 1 else -1
  | .count => if 0 ≤ (ds.map sgn).sum then 1 else -1

/-- `get_mask` at an entry, generalized_task_arithmetic.py:230-254. -/
def flMask (method : Consensus) (ds : List K) : List Bool := ds.map (fun d => decide (sgn d = flMajority A method ds))

/-- Mixing at an entry, generalized_task_arithmetic.py:152-182: weights (converted to the data type, 154-156) and delta entries to `mixed_delta`. -/
def flMix (consensus : Option Consensus) (normalize : Bool) (lam : K) (es : List (K × K)) : K :=
  let weights := es.map (fun e => A.rnd e.1)
  let weighted := es.map (fun e => A.rnd (e.2 * A.rnd e.1))
  let numDen : K × K :=
    match consensus with
    | some method =>
      let mk := flMask A method weighted
      let den := A.sum ((weights.zip mk).map (fun e => A.rnd (e.1 * ofBool e.2)))
      (A.sum ((weighted.zip mk).map (fun e => A.rnd (e.1 * ofBool e.2))), if den = 0 then 1 else den)
    | none =>
      let den := A.sum weights
      (A.sum weighted, if |den| < 1 / 100000000 then 1 else den)
  let m := if normalize then A.rnd (numDen.1 / numDen.2) else numDen.1
  if lam ≠ 1 then A.rnd (m * lam) else m

/-- `GTATask.execute`, generalized_task_arithmetic.py:119-184; `sp` is the sparsification with the model's parameters. -/
def flGta {M : Type} [DecidableEq M] (consensus : Option Consensus) (isEmbed normalize : Bool) (lam : K) (weight : M → K)
    (sp : M → Tensor K → Except Err (Tensor K)) (baseModel : M) (tensors : List (M × Tensor K)) :
    Except Err (Tensor K) :=
  match lookup tensors baseModel with
  | none => .error .noBase
  | some base =>
    match flTaskVectors A isEmbed baseModel base tensors with
    | .error e => .error e
    | .ok [] => .ok base
    | .ok (tv :: tvs) =>
      match sparsifyAll sp (tv :: tvs) with
      | .error e => .error e
      | .ok ds =>
        .ok ⟨base.shape, fun i => A.rnd (base.get i + flMix A consensus normalize lam (ds.map (fun e => (weight e.1, e.2.get i))))⟩

/-- `x.to(dtype=dtype)` for the type that rounds by `rnd`, io/tasks.py:124-125, 232-233. -/
def flCast (rnd : K → K) (t : Tensor K) : Tensor K := ⟨t.shape, fun i => rnd (t.get i)⟩

/-- A tensor that is loaded, converted to the type of the merge if one is given, merged, and converted to the type of the output if one is given.
[io/tasks.py:118-133, 222-236] -/
def flThrough (mergeType outType : Option (K → K)) (method : Tensor K → Except Err (Tensor K)) (t : Tensor K) : Except Err (Tensor K) :=
  match method (match mergeType with
    | none => t
    | some rnd => flCast rnd t) with
  | .error e => .error e
  | .ok r => .ok (match outType with
    | none => r
    | some rnd => flCast rnd r)

end

end Verif.Rounding
