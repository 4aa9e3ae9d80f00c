import Verif.Model.Tensor
import Mathlib.Algebra.Order.Field.Basic
import Mathlib.Algebra.Order.Floor.Ring
import Mathlib.Algebra.BigOperators.Group.List.Basic

/-! # Sparsification of task vectors (`/repo/mergekit/sparsify.py`)

`torch.argsort`, `torch.sort` and `torch.bernoulli` are parameters: a function that gives the positions in sorted order (which order for equal
values is not said), and a function from probabilities to a mask.  `sqrt` is a parameter so that numbers can be any ordered field. -/

namespace Verif.Sparsify

open Verif.Tensor

section
variable {K : Type} [Field K] [LinearOrder K]

/-- `RescaleNorm`, sparsify.py:17-20. -/
inductive Norm where
  | l1 | l2 | linf
deriving DecidableEq

/-- The scales of sparsify.py:40-48: sum of magnitudes, Euclidean norm, largest magnitude (0 for an empty tensor, where `max`
raises an error). -/
def normOf (sqrt : K → K) (norm : Norm) (t : Tensor K) : K :=
  match norm with
  | .l1 => ((List.range t.numel).map (fun i => |t.get i|)).sum
  | .l2 => sqrt ((List.range t.numel).map (fun i => t.get i * t.get i)).sum
  | .linf => ((List.range t.numel).map (fun i => |t.get i|)).foldl max 0

/-- `tensor * mask`, sparsify.py:37; masks are 0 or 1. -/
def masked (t : Tensor K) (mask : Nat → Bool) : Tensor K := ⟨t.shape, fun i => t.get i * (if mask i then 1 else 0)⟩

/-- `rescaled_masked_tensor`, sparsify.py:23-53. -/
def rescaled (sqrt : K → K) (t : Tensor K) (mask : Nat → Bool) (norm : Option Norm) (eps : K := 1 / 10000000) : Tensor K :=
  match norm with
  | none => masked t mask
  | some nm =>
    let before := normOf sqrt nm t
    let after := normOf sqrt nm (masked t mask)
    if before < eps ∨ after < eps then masked t mask
    else ⟨t.shape, fun i => (masked t mask).get i * (before / after)⟩

variable [FloorRing K]

/-- `int(x)` of a python float: towards zero.  [sparsify.py:56-105] -/
def toInt (x : K) : Int := if 0 ≤ x then ⌊x⌋ else ⌈x⌉

/-- `magnitude`, sparsify.py:56-74.  `argsort w n` is `torch.argsort(w, descending=True)` for `n` elements. -/
def magnitude (sqrt : K → K) (argsort : (Nat → K) → Nat → List Nat) (t : Tensor K) (density : K) (norm : Option Norm) :
    Except Err (Tensor K) :=
  if density ≥ 1 then .ok t
  else
    let k := toInt (density * (t.numel : K))
    if k > 0 then
      let top := (argsort (fun i => |t.get i|) t.numel).take k.toNat
      .ok (rescaled sqrt t (fun i => decide (i ∈ top)) norm)
    else .error .assertion

/-- A python slice bound: negative ones count from the end, then both are cut to the length.  [sparsify.py:96-116] -/
def sliceBound (n : Nat) (b : Int) : Nat := if b < 0 then (n + b).toNat else min b.toNat n

/-- `l[start:stop]`.  [sparsify.py:96-116] -/
def slice {A : Type} (l : List A) (start stop : Int) : List A :=
  (l.take (sliceBound l.length stop)).drop (sliceBound l.length start)

/-- The two counts of `magnitude_outliers`, sparsify.py:96-105: entries dropped at the bottom and at the top. -/
def outlierCounts (n : Nat) (density gamma : K) : Int × Int :=
  let target := toInt (density * (n : K))
  let top := toInt (gamma * (n : K))
  let bot := (n : Int) - target - top
  if bot < 0 then (0, top + bot) else (bot, top)

/-- `magnitude_outliers`, sparsify.py:77-116.  `sort w n` is `torch.sort(w, descending=False).indices`. -/
def magnitudeOutliers (sqrt : K → K) (sort : (Nat → K) → Nat → List Nat) (t : Tensor K) (density gamma : K) (norm : Option Norm) :
    Tensor K :=
  if density ≥ 1 then t
  else
    let c := outlierCounts t.numel density gamma
    let kept := slice (sort (fun i => |t.get i|) t.numel) c.1 (-c.2)
    rescaled sqrt t (fun i => decide (i ∈ kept)) norm

/-- `bernoulli`, sparsify.py:119-135.  `sample p` is `torch.bernoulli`, which refuses probabilities outside [0, 1]. -/
def bernoulli (sqrt : K → K) (sample : (Nat → K) → Nat → Bool) (t : Tensor K) (density : K) (norm : Option Norm) :
    Except Err (Tensor K) :=
  if density ≥ 1 then .ok t
  else if density < 0 then .error .value
  else .ok (rescaled sqrt t (sample (fun _ => density)) norm)

/-- Rows along dimension 1, and the stride of that dimension; sparsify.py:161-162 gives vectors a leading dimension.  A tensor without
dimensions gets one dimension only, and sorting along dimension 1 fails. -/
def lineOf (shape : List Nat) : Option (Nat × Nat) :=
  match shape with
  | [] => none
  | [n] => some (n, 1)
  | _ :: b :: rest => some (b, rest.prod)

/-- Position of the `j`-th element of the line through position `i`, for lines of length `b` and stride `s`.  [sparsify.py:161-171] -/
def onLine (b s i j : Nat) : Nat := (i / s / b * b + j) * s + i % s

/-- `probs` at position `i`, sparsify.py:163-171.  The ranks along a line of length `b` are 1 to `b`. -/
def dellaProb (argsort : (Nat → K) → Nat → List Nat) (t : Tensor K) (b s : Nat) (density epsilon : K) (i : Nat) : K :=
  let order := argsort (fun j => |t.get (onLine b s i j)|) b
  let rank : K := (order.idxOf (i / s % b) : K) + 1
  let rankNorm := min (max ((rank - 1) / ((b : K) - 1)) 0) 1
  (density - epsilon) + rankNorm * 2 * epsilon

/-- `della_magprune`, sparsify.py:138-175.  For lines of length 1 the ranks are divided by zero; `torch.bernoulli` refuses NaN. -/
def della (sqrt : K → K) (argsort : (Nat → K) → Nat → List Nat) (sample : (Nat → K) → Nat → Bool) (t : Tensor K)
    (density epsilon : K) (norm : Option Norm) : Except Err (Tensor K) :=
  if density ≥ 1 then .ok t
  else if density ≤ 0 then .ok ⟨t.shape, fun _ => 0⟩
  else if density + epsilon ≥ 1 ∨ density - epsilon ≤ 0 then .error .value
  else
    match lineOf t.shape with
    | none => .error .shape
    | some (b, s) =>
      if b = 1 then .error .nonFinite
      else .ok (rescaled sqrt t (sample (dellaProb argsort t b s density epsilon)) norm)

/-- `SparsificationMethod`, sparsify.py:10-14. -/
inductive Method where
  | magnitude | random | magnitudeOutliers | dellaMagprune

/-- `sparsify`, sparsify.py:178-199. -/
def sparsify (sqrt : K → K) (sortDesc sortAsc : (Nat → K) → Nat → List Nat) (sample : (Nat → K) → Nat → Bool) (t : Tensor K)
    (density : K) (method : Method) (gamma epsilon : K) (norm : Option Norm) : Except Err (Tensor K) :=
  match method with
  | .magnitude => magnitude sqrt sortDesc t density norm
  | .random => bernoulli sqrt sample t density norm
  | .magnitudeOutliers => .ok (magnitudeOutliers sqrt sortAsc t density gamma norm)
  | .dellaMagprune => della sqrt sortAsc sample t density epsilon norm

end

end Verif.Sparsify
