import Mathlib.Analysis.InnerProductSpace.PiL2

/-! # Interpolation between shared tokens (`/repo/mergekit/tokensurgeon/common_interpolation.py`)

One target at a time, over the reals.  `torch.topk` and `torch.linalg.lstsq` are parameters. -/

namespace Verif.Landmarks

/-- A vector of an embedding.  [tokensurgeon/common_interpolation.py:24-55] -/
abbrev Vec (dim : Nat) := EuclideanSpace ℝ (Fin dim)

/-- How a run can fail.  [tokensurgeon/common_interpolation.py:24-126] -/
inductive Err where
  | assertion
  /-- `topk` of more than there are: `RuntimeError` -/
  | runtime
deriving DecidableEq

/-- `DistanceMetric`, common_interpolation.py:13-15. -/
inductive Metric where
  | euclidean
  | cosine
deriving DecidableEq

/-- `WeightingScheme`, common_interpolation.py:18-21. -/
inductive Scheme where
  | distanceProportional
  | barycentric
  | leastSquares
deriving DecidableEq

/-- What the libraries decide.  [tokensurgeon/common_interpolation.py:50-52, 70-72, 102] -/
structure Oracle where
  /-- `torch.topk(distances, k, largest=False)`: the positions; the arguments are the number of candidates, `k` and the distances -/
  topk : (n k : Nat) → (Nat → ℝ) → List Nat
  /-- `torch.linalg.lstsq(a, b).solution` -/
  lstsq : {m n : Nat} → (Fin m → Fin n → ℝ) → (Fin m → ℝ) → Fin n → ℝ

/-- `_cosine_sim`, common_interpolation.py:75-78. -/
noncomputable def cosineSim {dim : Nat} (x y : Vec dim) : ℝ := inner ℝ x y / max (‖x‖ * ‖y‖) (1 / 1000000)

/-- The distance of a target to a candidate, common_interpolation.py:93-98. -/
noncomputable def distance {dim : Nat} (metric : Metric) (target p : Vec dim) : ℝ :=
  match metric with
  | .euclidean => ‖target - p‖
  | .cosine => 1 - cosineSim target p

/-- The weights before they are divided by their sum, common_interpolation.py:42-45. -/
noncomputable def rawWeight (cosine : Bool) (d : ℝ) : ℝ := if cosine then 1 - d else 1 / max d (1 / 1000000)

/-- The weights by distance, common_interpolation.py:41-46. -/
noncomputable def proportional {n : Nat} (cosine : Bool) (d : Fin n → ℝ) (i : Fin n) : ℝ :=
  rawWeight cosine (d i) / max (∑ j, rawWeight cosine (d j)) (1 / 1000000)

/-- The matrix of `barycentric_weights`, common_interpolation.py:60-66: scalar products bordered by ones. -/
noncomputable def bordered {dim n : Nat} (points : Fin n → Vec dim) (i j : Fin (n + 1)) : ℝ :=
  if hi : i.1 < n then
    if hj : j.1 < n then inner ℝ (points ⟨i.1, hi⟩) (points ⟨j.1, hj⟩) else 1
  else if j.1 < n then 1 else 0

/-- The right hand side, common_interpolation.py:67-69. -/
noncomputable def borderedRhs {dim n : Nat} (target : Vec dim) (points : Fin n → Vec dim) (i : Fin (n + 1)) : ℝ :=
  if hi : i.1 < n then inner ℝ target (points ⟨i.1, hi⟩) else 1

/-- `barycentric_weights`, common_interpolation.py:58-72: the solution without the multiplier. -/
noncomputable def barycentric (o : Oracle) {dim n : Nat} (target : Vec dim) (points : Fin n → Vec dim) (i : Fin n) : ℝ :=
  o.lstsq (bordered points) (borderedRhs target points) ⟨i.1, by omega⟩

/-- The weights by least squares, common_interpolation.py:49-52. -/
noncomputable def leastSquares (o : Oracle) {dim n : Nat} (target : Vec dim) (points : Fin n → Vec dim) (i : Fin n) : ℝ :=
  o.lstsq (fun (a : Fin dim) (j : Fin n) => points j a) (fun a => target a) i

/-- `approximate_from_landmarks`, common_interpolation.py:24-53. -/
noncomputable def weights (o : Oracle) (scheme : Scheme) (cosine : Bool) {dim n : Nat} (target : Vec dim) (points : Fin n → Vec dim) (d : Fin n → ℝ) : Fin n → ℝ :=
  match scheme with
  | .distanceProportional => proportional cosine d
  | .barycentric => barycentric o target points
  | .leastSquares => leastSquares o target points

/-- The neighbours, common_interpolation.py:100-108, of `count` candidates. -/
noncomputable def neighbours (o : Oracle) (count : Nat) (k : Option Int) (d : Nat → ℝ) : Except Err (List Nat) :=
  match k with
  | none => .ok (List.range count)
  | some k =>
    if k ≤ 0 then .error .assertion
    else if (count : Int) < k then .error .runtime
    else .ok (o.topk count k.toNat d)

/-- `common_interp_approximate`, common_interpolation.py:81-126: neighbours and their weights. -/
noncomputable def interpolate (o : Oracle) {dim : Nat} (count : Nat) (points : Nat → Vec dim) (target : Vec dim) (k : Option Int) (metric : Metric) (scheme : Scheme) :
    Except Err (List (Nat × ℝ)) :=
  match neighbours o count k (fun i => distance metric target (points i)) with
  | .error e => .error e
  | .ok idx => .ok (List.ofFn (fun i : Fin idx.length =>
      (idx.get i, weights o scheme (decide (metric = .cosine)) target (fun j => points (idx.get j)) (fun j => distance metric target (points (idx.get j))) i)))

end Verif.Landmarks
