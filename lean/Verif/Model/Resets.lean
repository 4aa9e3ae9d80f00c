import Mathlib.Analysis.InnerProductSpace.Basic
import Mathlib.Order.WithBot

/-! # Matching pursuit with resets (`/repo/mergekit/tokensurgeon/omp.py:121-203`)

`batch_mp_resets` for one target (the targets of a batch do not interact, they share the order), over the reals.  Which of several best candidates
`torch.max` picks and the permutations of `torch.randperm` are parameters. -/

namespace Verif.Resets

variable {E : Type} [NormedAddCommGroup E] [InnerProductSpace ℝ E]

/-- How a run can fail.  [tokensurgeon/omp.py:138-148, 162-164] -/
inductive Err where
  /-- `ValueError` -/
  | value
  /-- not an exception: the loop over permutations never ends -/
  | endless
deriving DecidableEq

/-- The tensors of the loop, omp.py:155-159. -/
structure State (E : Type) where
  selected : Nat → Nat
  mask : Nat → Bool
  coeff : Nat → ℝ
  residual : E

/-- The state before the loop.  [tokensurgeon/omp.py:155-159] -/
def start (target : E) : State E := { selected := fun _ => 0, mask := fun _ => false, coeff := fun _ => 0, residual := target }

/-- `while len(iter_indices) < total_iterations`, omp.py:162-164; `perms j` is what the `j`-th call of `torch.randperm(k)` gives.  The number of rounds
is bounded by the fuel (one more than the number of iterations): more rounds are only taken when the permutations are empty, and then without end. -/
def fillUp (perms : Nat → List Nat) (total : Nat) : Nat → Nat → List Nat → Option (List Nat)
  | 0, _, _ => none
  | fuel + 1, j, l => if l.length < total then fillUp perms total fuel (j + 1) (l ++ perms j) else some l

/-- `iter_indices`, omp.py:161-165. -/
def order (perms : Nat → List Nat) (k total : Nat) : Option (List Nat) :=
  match fillUp perms total (total + 1) 0 (List.range k) with
  | none => none
  | some l => some (l.take total)

/-- `inner_products` with the mask, omp.py:170-172, 192-193. -/
noncomputable def score (points : Nat → E) (s : State E) (i : Nat) : WithBot ℝ :=
  if s.mask i then ⊥ else ((inner ℝ s.residual (points i) : ℝ) : WithBot ℝ)

/-- A candidate is chosen for the place `t`, omp.py:170-180, 192-201.  (The maximum is the product with the candidate chosen: it would be minus infinity
only if all candidates were masked.) -/
noncomputable def put (argmax : (Nat → WithBot ℝ) → Nat) (eps : ℝ) (points : Nat → E) (t : Nat) (s : State E) : State E :=
  let i := argmax (score points s)
  let c := (inner ℝ s.residual (points i) : ℝ) / ((inner ℝ (points i) (points i) : ℝ) + eps)
  { selected := fun l => if l = t then i else s.selected l
    mask := fun m => if m = i then true else s.mask m
    coeff := fun l => if l = t then c else s.coeff l
    residual := s.residual - c • points i }

/-- The candidate at the place `t` is taken back, omp.py:184-190. -/
noncomputable def remove (points : Nat → E) (t : Nat) (s : State E) : State E :=
  { s with residual := s.residual + s.coeff t • points (s.selected t), mask := fun m => if m = s.selected t then false else s.mask m }

/-- The loop, omp.py:167-201: `n` rounds have been taken, the places that follow are given. -/
noncomputable def loop (argmax : (Nat → WithBot ℝ) → Nat) (eps : ℝ) (points : Nat → E) (k : Nat) : Nat → List Nat → State E → State E
  | _, [], s => s
  | n, t :: rest, s =>
    loop argmax eps points k (n + 1) rest (if n < k then put argmax eps points t s else put argmax eps points t (remove points t s))

/-- `batch_mp_resets`, omp.py:121-203, for one target and `count` candidates: the selected candidates and their coefficients. -/
noncomputable def run (argmax : (Nat → WithBot ℝ) → Nat) (perms : Nat → List Nat) (eps : ℝ) (points : Nat → E) (count : Nat) (target : E) (k : Nat)
    (iterations : Option Nat) : Except Err (List Nat × List ℝ) :=
  let total := iterations.getD (k * 3)
  if total < k then .error .value
  else if count < k then .error .value
  else
    match order perms k total with
    | none => .error .endless
    | some l =>
      let s := loop argmax eps points k 0 l (start target)
      .ok ((List.range k).map s.selected, (List.range k).map s.coeff)

end Verif.Resets
