import Mathlib.Data.Matrix.Mul
import Mathlib.Data.Real.Basic
import Mathlib.Algebra.BigOperators.Ring.Finset

/-! # New tokens by principal components (`/repo/mergekit/tokensurgeon/pca.py`)

Over the reals, one target at a time (the rows of `targets` do not interact).  `torch.pca_lowrank` (which is randomised) and `torch.svd` are parameters. -/

namespace Verif.Pca

open Matrix

/-- What the libraries decide.  [tokensurgeon/pca.py:45-54] -/
structure Oracle where
  /-- `torch.pca_lowrank(centered, q)[2]`: the directions, as columns -/
  pca : {n d : Nat} → (q : Nat) → Matrix (Fin n) (Fin d) ℝ → Matrix (Fin d) (Fin q) ℝ
  /-- `torch.svd(m)` -/
  svd : {q : Nat} → Matrix (Fin q) (Fin q) ℝ → Matrix (Fin q) (Fin q) ℝ × (Fin q → ℝ) × Matrix (Fin q) (Fin q) ℝ

/-- The mean of the points, pca.py:38-39. -/
noncomputable def mean {n d : Nat} (points : Matrix (Fin n) (Fin d) ℝ) : Fin d → ℝ := fun j => (∑ i, points i j) / n

/-- The centered points, pca.py:40-41. -/
noncomputable def centered {n d : Nat} (points : Matrix (Fin n) (Fin d) ℝ) : Matrix (Fin n) (Fin d) ℝ := fun i j => points i j - mean points j

/-- The principal coordinates, pca.py:45-51. -/
noncomputable def coordinates (o : Oracle) {n d : Nat} (q : Nat) (points : Matrix (Fin n) (Fin d) ℝ) : Matrix (Fin n) (Fin q) ℝ :=
  centered points * o.pca q (centered points)

/-- The rotation of the principal coordinates, pca.py:53-55. -/
noncomputable def rotation (o : Oracle) {n q : Nat} (a b : Matrix (Fin n) (Fin q) ℝ) : Matrix (Fin q) (Fin q) ℝ :=
  (o.svd (bᵀ * a)).1 * (o.svd (bᵀ * a)).2.2ᵀ

/-- The steps of `landmark_pca_approximate`, pca.py:38-65, with `q` components. -/
noncomputable def approximateAt (o : Oracle) {n da db : Nat} (q : Nat) (target : Fin da → ℝ) (a : Matrix (Fin n) (Fin da) ℝ) (b : Matrix (Fin n) (Fin db) ℝ) : Fin db → ℝ :=
  ((((target - mean a) ᵥ* o.pca q (centered a)) ᵥ* rotation o (coordinates o q a) (coordinates o q b)) ᵥ* (o.pca q (centered b))ᵀ) + mean b

/-- `landmark_pca_approximate`, pca.py:11-65, with `effective_dim = min(d_a, d_b)`. -/
noncomputable def approximate (o : Oracle) {n da db : Nat} (target : Fin da → ℝ) (a : Matrix (Fin n) (Fin da) ℝ) (b : Matrix (Fin n) (Fin db) ℝ) : Fin db → ℝ :=
  approximateAt o (min da db) target a b

end Verif.Pca
