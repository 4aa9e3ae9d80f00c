import Mathlib.Analysis.SpecialFunctions.Complex.Arg
import Mathlib.Analysis.SpecialFunctions.Pow.Real
import Mathlib.Algebra.BigOperators.Intervals
import Mathlib.Order.WithBot

/-! # Rotary positions (`/repo/mergekit/tokensurgeon/rope_helpers.py`) and matching pursuit with them (`/repo/mergekit/tokensurgeon/omp.py:206-316`)

Over the reals, for one vector (the vectors of a batch do not interact).  A vector of `n` entries is a function on the numbers of which the first `n`
matter.  `atan2(b, a)` is the argument of `a + b i`; the sign of a zero is not modelled. -/

namespace Verif.Rope

open Finset

noncomputable section

/-- How a call can fail.  [tokensurgeon/rope_helpers.py:164, 180-183; tokensurgeon/omp.py:225-226, 259] -/
inductive Err where
  /-- more points asked for than there are: `ValueError` -/
  | value
  /-- sizes that do not fit: `RuntimeError` of torch -/
  | shape
  /-- `D // 0` -/
  | zeroDivision
deriving DecidableEq

/-- A vector seen as heads: `x.view(..., num_heads, head_dim)`, rope_helpers.py:58, 100, 164. -/
def view (d : Nat) (x : Nat → ℝ) (h j : Nat) : ℝ := x (h * d + j)

/-- Heads put in a row again: `.view(*x.shape)`, rope_helpers.py:183. -/
def unview (d : Nat) (y : Nat → Nat → ℝ) (i : Nat) : ℝ := y (i / d) (i % d)

/-- One head rotated, rope_helpers.py:166-180: entry `j` belongs with entry `j + d / 2`. -/
def rotateHead (d : Nat) (theta : Nat → ℝ) (x : Nat → ℝ) (j : Nat) : ℝ :=
  if j < d / 2 then x j * Real.cos (theta j) - x (d / 2 + j) * Real.sin (theta j)
  else x j * Real.cos (theta (j - d / 2)) + x (j - d / 2) * Real.sin (theta (j - d / 2))

/-- `apply_rope_theta` on vectors of a fitting size, rope_helpers.py:147-183; `theta h j` is the angle of pair `j` of head `h`. -/
def rotate (d : Nat) (theta : Nat → Nat → ℝ) (x : Nat → ℝ) : Nat → ℝ := unview d (fun h => rotateHead d (theta h) (view d x h))

/-- Whether the vectors of `n` entries have `heads` heads of `d` entries, an even number.  Otherwise `view` fails (rope_helpers.py:58, 164), or what is put
together has another size than the vector (rope_helpers.py:176-183). -/
def fits (heads d n : Nat) : Bool := decide (n = heads * d) && decide (d % 2 = 0)

/-- `llama_rope_rotationmat` for one head, rope_helpers.py:6-29. -/
def matrix (d : Nat) (theta : Nat → ℝ) (i j : Nat) : ℝ :=
  if i < d / 2 ∧ j = i then Real.cos (theta i)
  else if i < d / 2 ∧ j = d / 2 + i then Real.sin (theta i)
  else if d / 2 ≤ i ∧ i < d / 2 + d / 2 ∧ j = i - d / 2 then -Real.sin (theta (i - d / 2))
  else if d / 2 ≤ i ∧ i < d / 2 + d / 2 ∧ j = i then Real.cos (theta (i - d / 2))
  else 0

/-- `_rope_inv_freq`, rope_helpers.py:32-37. -/
def invFreq (base : ℝ) (d j : Nat) : ℝ := 1 / base ^ (((2 * j : Nat) : ℝ) / d)

/-- `torch.atan2(b, a)`, rope_helpers.py:73, 112. -/
def atan2 (b a : ℝ) : ℝ := Complex.arg ⟨a, b⟩

/-- `estimate_theta` for one head, rope_helpers.py:61-75. -/
def thetaHead (d : Nat) (x0 x1 : Nat → ℝ) (j : Nat) : ℝ :=
  atan2 (x0 j * x1 (d / 2 + j) - x0 (d / 2 + j) * x1 j) (x0 j * x1 j + x0 (d / 2 + j) * x1 (d / 2 + j))

/-- `estimate_theta`, rope_helpers.py:40-75. -/
def estimateTheta (d : Nat) (x0 x1 : Nat → ℝ) (h j : Nat) : ℝ := thetaHead d (view d x0 h) (view d x1 h) j

/-- The `1e-8` of rope_helpers.py:119, 136, 143. -/
def tiny : ℝ := 1 / 10 ^ 8

/-- `estimate_position_id`, rope_helpers.py:78-120, on vectors of a fitting size. -/
def estimatePosition (heads d : Nat) (base : ℝ) (x0 x1 : Nat → ℝ) : ℝ :=
  (∑ h ∈ range heads, ∑ j ∈ range (d / 2), estimateTheta d x0 x1 h j / invFreq base d j * (view d x0 h j ^ 2 + view d x0 h (d / 2 + j) ^ 2)) /
    ((∑ h ∈ range heads, ∑ j ∈ range (d / 2), (view d x0 h j ^ 2 + view d x0 h (d / 2 + j) ^ 2)) + tiny)

/-- `basis_vector_norm`, rope_helpers.py:131-135. -/
def basisNorm (heads d : Nat) (base : ℝ) : ℝ := Real.sqrt (∑ _h ∈ range heads, ∑ j ∈ range (d / 2), invFreq base d j ^ 2)

/-- `scaling_factor`, rope_helpers.py:141-142. -/
def scalingFactor (heads d : Nat) (base : ℝ) : ℝ := Real.sqrt heads * Real.sqrt (∑ j ∈ range (d / 2), invFreq base d j ^ 2)

/-- `estimate_position_id_projection`, rope_helpers.py:123-144, on vectors of a fitting size. -/
def projectPosition (heads d : Nat) (base : ℝ) (x0 x1 : Nat → ℝ) : ℝ :=
  (∑ h ∈ range heads, ∑ j ∈ range (d / 2), estimateTheta d x0 x1 h j * (invFreq base d j / (basisNorm heads d base + tiny))) /
    (scalingFactor heads d base + tiny)

/-- `estimate_pos_id_best`, rope_helpers.py:186-199 (the rest of the function comes after its `return`). -/
def bestPosition (heads d : Nat) (base : ℝ) (x0 x1 : Nat → ℝ) : ℝ := projectPosition heads d base x0 x1

/-- `apply_rope`, rope_helpers.py:238-264, on vectors of a fitting size: all heads are rotated alike. -/
def rope (d : Nat) (base : ℝ) (pos : ℝ) (x : Nat → ℝ) : Nat → ℝ := rotate d (fun _ j => pos * invFreq base d j) x

/-! ## Matching pursuit -/

/-- `(x * y).sum()` over `n` entries, omp.py:243, 282. -/
def dot (n : Nat) (x y : Nat → ℝ) : ℝ := ∑ i ∈ range n, x i * y i

/-- A space of embeddings: the size of the vectors, the number of heads and the base of the frequencies.  [tokensurgeon/omp.py:211-215] -/
structure Space where
  n : Nat
  heads : Nat
  base : ℝ

/-- `D // num_heads`, omp.py:259, 311. -/
def Space.dim (s : Space) : Nat := s.n / s.heads

/-- The calls of the helpers for a space work.  [tokensurgeon/omp.py:255-314] -/
def Space.check (s : Space) : Except Err Unit :=
  if s.heads = 0 then .error .zeroDivision else if fits s.heads s.dim s.n then .ok () else .error .shape

/-- The vectors of the space rotated. [tokensurgeon/omp.py:273-279, 293-299, 307-313] -/
def Space.rope (s : Space) (pos : ℝ) (x : Nat → ℝ) : Nat → ℝ := Rope.rope s.dim s.base pos x

/-- The position for an atom, omp.py:255-271. -/
def choosePosition (s : Space) (atom residual : Nat → ℝ) : ℝ :=
  if |bestPosition s.heads s.dim s.base atom residual| < |bestPosition s.heads s.dim s.base atom (fun i => -residual i)| then
    bestPosition s.heads s.dim s.base atom residual
  else bestPosition s.heads s.dim s.base atom (fun i => -residual i)

/-- What the libraries decide. [tokensurgeon/omp.py:247, 300-303] -/
structure Oracle where
  /-- `torch.max(abs_inner, dim=1)`: the position -/
  argmax : (Nat → WithBot ℝ) → Nat
  /-- `torch.linalg.lstsq(columns, target).solution`: number of columns, columns, target -/
  lstsq : Nat → (Nat → Nat → ℝ) → (Nat → ℝ) → Nat → ℝ

/-- The tensors of the loop, omp.py:236-240. -/
structure State where
  selected : Nat → Nat
  coeffs : Nat → ℝ
  pos : Nat → ℝ
  mask : Nat → Bool
  residual : Nat → ℝ

/-- The state before the loop, omp.py:236-240. -/
def start (target : Nat → ℝ) : State := { selected := fun _ => 0, coeffs := fun _ => 0, pos := fun _ => 0, mask := fun _ => false, residual := target }

/-- `abs_inner` with the mask, omp.py:243-244. -/
def score (n : Nat) (points : Nat → Nat → ℝ) (s : State) (i : Nat) : WithBot ℝ :=
  if s.mask i then ⊥ else ((|dot n s.residual (points i)| : ℝ) : WithBot ℝ)

/-- The rotated atom for a residual, omp.py:252-279. -/
def turned (sp : Space) (atom residual : Nat → ℝ) : Nat → ℝ := sp.rope (choosePosition sp atom residual) atom

/-- `current_coeff`, omp.py:282-284. -/
def coefficient (n : Nat) (eps : ℝ) (residual atom : Nat → ℝ) : ℝ := dot n residual atom / max (dot n atom atom) eps

/-- One round of the loop, omp.py:242-288. -/
def step (o : Oracle) (sp : Space) (eps : ℝ) (points : Nat → Nat → ℝ) (t : Nat) (s : State) : State :=
  let i := o.argmax (score sp.n points s)
  let atom := turned sp (points i) s.residual
  let c := coefficient sp.n eps s.residual atom
  { selected := fun l => if l = t then i else s.selected l
    coeffs := fun l => if l = t then c else s.coeffs l
    pos := fun l => if l = t then choosePosition sp (points i) s.residual else s.pos l
    mask := fun l => if l = i then true else s.mask l
    residual := fun l => s.residual l - c * atom l }

/-- The loop, omp.py:242-288, after `t` rounds. -/
def loop (o : Oracle) (sp : Space) (eps : ℝ) (points : Nat → Nat → ℝ) (target : Nat → ℝ) : Nat → State
  | 0 => start target
  | t + 1 => step o sp eps points t (loop o sp eps points target t)

/-- The selected points, rotated, omp.py:293-299, 306-313. -/
def atoms (sp : Space) (points : Nat → Nat → ℝ) (s : State) (t : Nat) : Nat → ℝ := sp.rope (s.pos t) (points (s.selected t))

/-- The coefficients of the result, omp.py:285, 290-303. -/
def finalCoeffs (o : Oracle) (sp : Space) (final : Bool) (points : Nat → Nat → ℝ) (target : Nat → ℝ) (k : Nat) (s : State) : Nat → ℝ :=
  if final then o.lstsq k (atoms sp points s) target else s.coeffs

/-- What `batch_mp_rope` returns for one target, omp.py:316: points, coefficients, the result and what the pursuit reached in the space of the target. -/
structure Result where
  selected : Nat → Nat
  coeffs : Nat → ℝ
  result : Nat → ℝ
  inDonor : Nat → ℝ

/-- `batch_mp_rope` for one target and `count` points, omp.py:206-316.  Data types are left out, and so is the case `k = 0` of two spaces that do not
fit (an error here, although only the second space is looked at then). -/
def pursue (o : Oracle) (a b : Space) (eps : ℝ) (final : Bool) (count : Nat) (pointsA pointsB : Nat → Nat → ℝ) (target : Nat → ℝ) (k : Nat) :
    Except Err Result :=
  if count < k then .error .value
  else
    a.check.bind fun _ => b.check.bind fun _ =>
      let s := loop o a eps pointsA target k
      let c := finalCoeffs o a final pointsA target k s
      .ok { selected := s.selected
            coeffs := c
            result := fun l => ∑ t ∈ range k, c t * atoms b pointsB s t l
            inDonor := fun l => target l - s.residual l }

end

end Verif.Rope
