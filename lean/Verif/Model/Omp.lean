import Mathlib.Analysis.InnerProductSpace.Basic
import Mathlib.Algebra.BigOperators.Intervals
import Mathlib.Order.WithBot

/-! # Orthogonal matching pursuit (`/repo/mergekit/tokensurgeon/omp.py`)

`batch_omp` for one target (the targets of a batch do not interact), over the reals.  Which of several best candidates `torch.max` picks and the result
of `torch.linalg.qr` are parameters.  The tensors allocated for `k` columns are functions on all numbers, zero where nothing has been written. -/

namespace Verif.Omp

variable {E : Type} [NormedAddCommGroup E] [InnerProductSpace ℝ E]

/-- How a run can fail.  [tokensurgeon/omp.py:14-118] -/
inductive Err where
  /-- more points asked for than there are: `ValueError` -/
  | value
  /-- not an exception: the result has infinities or NaNs -/
  | singular
deriving DecidableEq

/-- The tensors of the loop, omp.py:49-53. -/
structure State (E : Type) where
  selected : Nat → Nat
  mask : Nat → Bool
  q : Nat → E
  r : Nat → Nat → ℝ
  residual : E

/-- What the libraries decide.  [tokensurgeon/omp.py:63, 92] -/
structure Oracle (E : Type) where
  /-- `torch.max(abs_inner, dim=1)`: the position -/
  argmax : (Nat → WithBot ℝ) → Nat
  /-- `torch.linalg.qr` of the first columns -/
  qr : Nat → (Nat → E) → (Nat → E) × (Nat → Nat → ℝ)

/-- The settings: the number of candidates, `eps` and `reorthogonalize_interval` (256 unless given; zero would be an error of python). -/
structure Setup where
  n : Nat
  eps : ℝ
  interval : Nat

/-- `abs_inner` with the mask, omp.py:58-60. -/
noncomputable def score (points : Nat → E) (s : State E) (i : Nat) : WithBot ℝ :=
  if s.mask i then ⊥ else ((|inner ℝ s.residual (points i)| : ℝ) : WithBot ℝ)

/-- The part of the new atom outside of the span of the first `t` columns, omp.py:74-83. -/
noncomputable def remainder (q : Nat → E) (t : Nat) (atom : E) : E := atom - ∑ i ∈ Finset.range t, (inner ℝ (q i) atom : ℝ) • q i

/-- The new column and its coefficients, omp.py:68-88. -/
noncomputable def extend (eps : ℝ) (t : Nat) (atom : E) (q : Nat → E) (r : Nat → Nat → ℝ) : (Nat → E) × (Nat → Nat → ℝ) :=
  if t = 0 then
    (fun i => if i = 0 then (max ‖atom‖ eps)⁻¹ • atom else q i, fun i j => if i = 0 ∧ j = 0 then ‖atom‖ else r i j)
  else
    (fun i => if i = t then (max ‖remainder q t atom‖ eps)⁻¹ • remainder q t atom else q i,
     fun i j => if j = t ∧ i < t then inner ℝ (q i) atom else if j = t ∧ i = t then max ‖remainder q t atom‖ eps else r i j)

/-- The reorthogonalization, omp.py:90-94, of the first `n` columns. -/
noncomputable def reorthogonalize (o : Oracle E) (n : Nat) (q : Nat → E) (r : Nat → Nat → ℝ) : (Nat → E) × (Nat → Nat → ℝ) :=
  (fun i => if i < n then (o.qr n q).1 i else q i,
   fun i j => if i < n ∧ j < n then ∑ l ∈ Finset.range n, (o.qr n q).2 i l * r l j else r i j)

/-- What the first `n` columns leave of the target, omp.py:96-100. -/
noncomputable def residualOf (q : Nat → E) (n : Nat) (target : E) : E := target - ∑ i ∈ Finset.range n, (inner ℝ (q i) target : ℝ) • q i

/-- The columns after round `t`.  [tokensurgeon/omp.py:68-94] -/
noncomputable def columns (o : Oracle E) (c : Setup) (t : Nat) (atom : E) (s : State E) : (Nat → E) × (Nat → Nat → ℝ) :=
  if 0 < t ∧ t % c.interval = 0 then
    reorthogonalize o (t + 1) (extend c.eps t atom s.q s.r).1 (extend c.eps t atom s.q s.r).2
  else extend c.eps t atom s.q s.r

/-- One round of the loop, omp.py:55-101. -/
noncomputable def step (o : Oracle E) (c : Setup) (points : Nat → E) (target : E) (t : Nat) (s : State E) : State E where
  selected := fun i => if i = t then o.argmax (score points s) else s.selected i
  mask := fun i => if i = o.argmax (score points s) then true else s.mask i
  q := (columns o c t (points (o.argmax (score points s))) s).1
  r := (columns o c t (points (o.argmax (score points s))) s).2
  residual := residualOf (columns o c t (points (o.argmax (score points s))) s).1 (t + 1) target

/-- The state before the loop.  [tokensurgeon/omp.py:49-53] -/
def start (target : E) : State E := { selected := fun _ => 0, mask := fun _ => false, q := fun _ => 0, r := fun _ _ => 0, residual := target }

/-- The loop, omp.py:55. -/
noncomputable def loop (o : Oracle E) (c : Setup) (points : Nat → E) (target : E) : Nat → State E
  | 0 => start target
  | t + 1 => step o c points target t (loop o c points target t)

/-- `torch.linalg.solve_triangular(r, b, upper=True)` by substitution from below: the last `j` of `k` unknowns.  [tokensurgeon/omp.py:104-108] -/
noncomputable def backSub (k : Nat) (r : Nat → Nat → ℝ) (b : Nat → ℝ) : Nat → Nat → ℝ
  | 0, _ => 0
  | j + 1, l =>
    if l = k - 1 - j then (b l - ∑ m ∈ Finset.range k, if l < m then r l m * backSub k r b j m else 0) / r l l
    else backSub k r b j l

/-- The coefficients, omp.py:104-108. -/
noncomputable def coefficients (k : Nat) (target : E) (s : State E) : Nat → ℝ := backSub k s.r (fun i => inner ℝ (s.q i) target) k

open Classical in
/-- `batch_omp`, omp.py:14-118, for one target: the selected points and their coefficients. -/
noncomputable def omp (o : Oracle E) (c : Setup) (points : Nat → E) (target : E) (k : Nat) : Except Err (List Nat × List ℝ) :=
  if c.n < k then .error .value
  else if ∃ i < k, (loop o c points target k).r i i = 0 then .error .singular
  else .ok ((List.range k).map (loop o c points target k).selected, (List.range k).map (coefficients k target (loop o c points target k)))

end Verif.Omp
