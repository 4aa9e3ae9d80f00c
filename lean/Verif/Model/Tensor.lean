import Mathlib.Algebra.Order.Field.Basic
import Mathlib.Algebra.BigOperators.Group.List.Basic
import Mathlib.Tactic.Common

/-! # Tensors

Numbers are elements of a field (exact arithmetic instead of floating point; data type conversions are identities).  A
tensor is its shape and its entries by row-major position (`view(-1)`); only positions below the number of elements mean
anything.  Devices are not modelled. -/

set_option linter.dupNamespace false

namespace Verif.Tensor

/-- A tensor.  [the tensors of merge_methods/rectify_embed.py:13-35] -/
structure Tensor (K : Type) where
  shape : List Nat
  get : Nat → K

/-- `tensor.numel()`.  [sparsify.py:56-74] -/
def Tensor.numel {K : Type} (t : Tensor K) : Nat := t.shape.prod

/-- How an operation on tensors may fail.  [merge_methods/rectify_embed.py:13-35] -/
inductive Err where
  /-- shapes differ.  Where torch would broadcast, the result is not modelled. -/
  | shape
  /-- wrong number of tensors -/
  | count
  /-- base model missing (`RuntimeError`, `ValueError` or `KeyError`) -/
  | noBase
  /-- a failed assertion -/
  | assertion
  /-- a rejected parameter value -/
  | value
  /-- missing parameter of a model (`KeyError`) -/
  | key
  /-- no exception, but a tensor with infinities or NaNs -/
  | nonFinite
deriving DecidableEq

/-- Elementwise operation on tensors of one shape.  (Torch repeats rows or columns of which there is one; that is an error here, and no theorem is about it.)  [merge_methods/linear.py:32-57] -/
def map2 {K : Type} (f : K → K → K) (a b : Tensor K) : Except Err (Tensor K) :=
  if a.shape = b.shape then .ok ⟨a.shape, fun i => f (a.get i) (b.get i)⟩ else .error .shape

/-- `t[:m, :n]` of a two-dimensional tensor.  [merge_methods/rectify_embed.py:24-35] -/
def submatrix {K : Type} (t : Tensor K) (m n : Nat) : Option (Tensor K) :=
  match t.shape with
  | [r, c] => some ⟨[min m r, min n c], fun k => t.get ((k / min n c) * c + k % min n c)⟩
  | _ => none

/-- The smallest sizes, merge_methods/rectify_embed.py:25-29. -/
def minSizes {K : Type} : List (Tensor K) → Option (Nat × Nat) → Option (Nat × Nat)
  | [], acc => acc
  | t :: ts, acc =>
    let r := t.shape.getD 0 0
    let c := t.shape.getD 1 0
    match acc with
    | none => minSizes ts (some (r, c))
    | some (a, b) => minSizes ts (some (if r < a then r else a, if c < b then c else b))

/-- `take_common_submatrix`, merge_methods/rectify_embed.py:24-35, on two-dimensional tensors. -/
def takeCommonSubmatrix {K : Type} (ts : List (Tensor K)) : List (Tensor K) :=
  match minSizes ts none with
  | none => ts
  | some (m, n) =>
    if ts.all (fun t => t.shape = [m, n]) then ts
    else ts.map (fun t => (submatrix t m n).getD t)

/-- `rectify_embed_sizes`, merge_methods/rectify_embed.py:13-21. -/
def rectify {K : Type} (isEmbed : Bool) (ts : List (Tensor K)) : List (Tensor K) :=
  if isEmbed && ts.all (fun t => t.shape.length = 2) then takeCommonSubmatrix ts else ts

/-- The loop of `KarcherTask.execute` that should do the same for all tensors, merge_methods/karcher.py:48-49: the list that is
changed is a temporary one, so `model_tensors` stays as it is. -/
def karcherRectify {K : Type} (isEmbed : Bool) (ts : List (Tensor K)) : List (Tensor K) :=
  match ts with
  | [] => []
  | t0 :: rest =>
    (rest.foldl (fun (state : List (Tensor K)) t => let _tmp := rectify isEmbed [t0, t]; state) (t0 :: rest))

end Verif.Tensor
