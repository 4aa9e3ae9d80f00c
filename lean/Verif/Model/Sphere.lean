import Verif.Model.MergeMethods
import Mathlib.Analysis.SpecialFunctions.Trigonometric.Inverse
import Mathlib.Analysis.SpecialFunctions.Log.Basic
import Mathlib.Data.Real.Sqrt

/-! # Merge methods with norms and angles (`/repo/mergekit/merge_methods`)

Numbers are real numbers.  A *line* is the list of the positions of a tensor over which `dim=-1` reductions run. -/

namespace Verif.Sphere

open Verif.Tensor Verif.Merge

noncomputable section

/-- `(a * b).sum()` over a line.  [merge_methods/slerp.py:137, merge_methods/model_stock.py:76] -/
def dotOn (L : List Nat) (a b : Nat → ℝ) : ℝ := (L.map (fun j => a j * b j)).sum

/-- `torch.norm` over a line.  [merge_methods/slerp.py:166-170, merge_methods/model_stock.py:72-74] -/
def normOn (L : List Nat) (a : Nat → ℝ) : ℝ := Real.sqrt (dotOn L a a)

/-! ## Slerp -/

/-- `normalize`, slerp.py:166-170. -/
def normalizeEps (L : List Nat) (v : Nat → ℝ) (eps : ℝ) : Nat → ℝ :=
  if normOn L v > eps then fun i => v i / normOn L v else v

/-- `slerp`, slerp.py:100-157, on all `n` entries. -/
def slerp (n : Nat) (t : ℝ) (v0 v1 : Nat → ℝ) : Nat → ℝ :=
  let L := List.range n
  let dot := dotOn L (normalizeEps L v0 (1 / 100000000)) (normalizeEps L v1 (1 / 100000000))
  if |dot| > 9995 / 10000 then fun i => (1 - t) * v0 i + t * v1 i
  else
    let theta0 := Real.arccos dot
    let thetaT := theta0 * t
    let s0 := Real.sin (theta0 - thetaT) / Real.sin theta0
    let s1 := Real.sin thetaT / Real.sin theta0
    fun i => s0 * v0 i + s1 * v1 i

/-- `SlerpTask.execute`, slerp.py:33-56. -/
def slerpTask {M : Type} [DecidableEq M] (isEmbed : Bool) (baseModel : M) (t : ℝ) (tensors : List (M × Tensor ℝ)) :
    Except Err (Tensor ℝ) :=
  match tensors with
  | [(_, x)] => .ok x
  | [a, b] =>
    if a.1 ≠ baseModel ∧ b.1 ≠ baseModel then .error .noBase
    else
      let p := if a.1 ≠ baseModel then (b, a) else (a, b)
      match rectify isEmbed [p.1.2, p.2.2] with
      | [v0, v1] => if v0.shape = v1.shape then .ok ⟨v0.shape, slerp v0.numel t v0.get v1.get⟩ else .error .shape
      | _ => .error .shape
  | _ => .error .count

/-! ## NuSlerp -/

/-- `nuslerp`, nuslerp.py:130-165, at position `i` of a tensor whose line through `i` is `L`: the whole tensor with `flatten`, otherwise along the
last or the first dimension (the transposition makes the first one the last). -/
def nuslerpAt (L : List Nat) (t : ℝ) (v0 v1 : Nat → ℝ) (i : Nat) : ℝ :=
  let u0 := fun j => v0 j / max (normOn L v0) (1 / 10000000)
  let u1 := fun j => v1 j / max (normOn L v1) (1 / 10000000)
  let cos := dotOn L u0 u1
  let theta := Real.arccos (clamp (-1) 1 cos)
  if |Real.sin theta| < 1 / 100000000 then (1 - t) * v0 i + t * v1 i
  else (Real.sin ((1 - t) * theta) * v0 i + Real.sin (t * theta) * v1 i) / Real.sin theta

/-- The line through position `i`, nuslerp.py:143-148: `flatten`, `dim=0` (`row_wise`) or `dim=-1`. -/
def nuslerpLine (flatten rowWise : Bool) (shape : List Nat) (i : Nat) : List Nat :=
  let n := shape.prod
  if flatten then List.range n
  else if rowWise then
    let r := shape.headD 1
    (List.range r).map (fun j => j * (n / r) + i % (n / r))
  else
    let c := shape.getLastD 1
    (List.range c).map (fun j => i / c * c + j)

/-- `NuSlerpTask.execute`, nuslerp.py:35-82.  `pop` of an absent base raises `KeyError`. -/
def nuslerpTask {M : Type} [DecidableEq M] (isEmbed flatten rowWise : Bool) (baseModel : Option M) (weight : M → ℝ)
    (tensors : List (M × Tensor ℝ)) : Except Err (Tensor ℝ) :=
  match tensors with
  | [(_, x)] => .ok x
  | _ =>
    let t := fun (a b : M) =>
      if |weight a + weight b| < 1 / 1000000 then 1 / 2 else weight b / (weight a + weight b)
    match baseModel with
    | none =>
      match tensors with
      | [a, b] =>
        match rectify isEmbed [a.2, b.2] with
        | [x, y] =>
          if x.shape = y.shape then
            .ok ⟨x.shape, fun i => nuslerpAt (nuslerpLine flatten rowWise x.shape i) (t a.1 b.1) x.get y.get i⟩
          else .error .shape
        | _ => .error .shape
      | _ => .error .count
    | some base =>
      if tensors.length ≠ 3 then .error .count
      else
        match lookup tensors base with
        | none => .error .key
        | some bt =>
          match tensors.filter (fun e => decide (e.1 ≠ base)) with
          | [a, b] =>
            match rectify isEmbed [a.2, b.2, bt] with
            | [x, y, z] =>
              if x.shape = z.shape ∧ y.shape = z.shape then
                .ok ⟨z.shape, fun i => z.get i + nuslerpAt (nuslerpLine flatten rowWise z.shape i) (t a.1 b.1)
                  (fun j => x.get j - z.get j) (fun j => y.get j - z.get j) i⟩
              else .error .shape
            | _ => .error .shape
          | _ => .error .count

/-! ## Multislerp -/

/-- `multislerp`, multislerp.py:16-99, on the flattened tensors with `n` entries and weights.  `base` is the optional base tensor. -/
def multislerp (n : Nat) (base : Option (Nat → ℝ)) (normalizeWeights : Bool) (eps : ℝ) (ts : List (ℝ × (Nat → ℝ))) :
    Except Err (Nat → ℝ) :=
  match ts with
  | [] => .error .count
  | [(_, x)] => .ok x
  | _ =>
    let L := List.range n
    let off := fun (x : Nat → ℝ) => match base with
      | none => x
      | some b => fun i => x i - b i
    let back := fun (x : Nat → ℝ) => match base with
      | none => x
      | some b => fun i => x i + b i
    let total := (ts.map Prod.fst).sum
    if normalizeWeights = true ∧ total = 0 then .error .nonFinite
    else
      let xs : List (ℝ × (Nat → ℝ)) := ts.map (fun e => (if normalizeWeights then e.1 / total else e.1, off e.2))
      let unit := fun (x : Nat → ℝ) (i : Nat) => x i / (normOn L x + eps)
      let mean0 := fun i => (xs.map (fun e => unit e.2 i * e.1)).sum
      if normOn L mean0 < eps then
        match xs with
        | [a, b] => .ok (back (fun i => a.2 i * a.1 + b.2 i * b.1))
        | _ => .error .value
      else
        let mean := fun i => mean0 i / normOn L mean0
        let tangent := fun (x : Nat → ℝ) (i : Nat) => unit x i - dotOn L (unit x) mean * mean i
        let tangentResult := fun i => (xs.map (fun e => tangent e.2 i * e.1)).sum
        let tangentNorm := normOn L tangentResult + eps
        let avgNorm := (xs.map (fun e => normOn L e.2 * e.1)).sum
        .ok (back (fun i => (mean i * Real.cos tangentNorm + tangentResult i * (Real.sin tangentNorm / tangentNorm)) * avgNorm))

/-! ## Karcher mean -/

/-- One step of the sum `T`, karcher.py:163-173.  Antipodal vectors (`sin` zero) give NaN in exact arithmetic. -/
def karcherTangent (L : List Nat) (tol : ℝ) (u : Nat → ℝ) : List (ℝ × (Nat → ℝ)) → Except Err (Nat → ℝ)
  | [] => .ok (fun _ => 0)
  | (a, ui) :: rest =>
    match karcherTangent L tol u rest with
    | .error e => .error e
    | .ok T =>
      let dot := clamp (-1) 1 (dotOn L u ui)
      let theta := Real.arccos dot
      if theta < tol then .ok T
      else if Real.sin theta = 0 then .error .nonFinite
      else .ok (fun i => a * (theta / Real.sin theta) * (ui i - dot * u i) + T i)

/-- The iteration, karcher.py:161-188. -/
def karcherLoop (L : List Nat) (tol : ℝ) (units : List (ℝ × (Nat → ℝ))) : Nat → (Nat → ℝ) → Except Err (Nat → ℝ)
  | 0, u => .ok u
  | k + 1, u =>
    match karcherTangent L tol u units with
    | .error e => .error e
    | .ok T =>
      let nT := normOn L T
      if nT < tol then .ok u
      else
        let u' := fun i => Real.cos nT * u i + Real.sin nT * (T i / nT)
        let nu := normOn L u'
        karcherLoop L tol units k (if nu > tol then fun i => u' i / nu else u')

/-- The rest of `karcher_merge_tensors` once the non-negligible tensors `valid` are known, karcher.py:138-195; `s` is the average norm, karcher.py:191. -/
def karcherValid (L : List Nat) (maxIter : Nat) (tol s : ℝ) (valid : List (ℝ × (Nat → ℝ))) : Except Err (Nat → ℝ) :=
  match valid with
  | [] => .ok (fun _ => 0)
  | v0 :: vs =>
    let total := ((v0 :: vs).map Prod.fst).sum
    if total = 0 then .error .nonFinite
    else
      let units : List (ℝ × (Nat → ℝ)) := (v0 :: vs).map (fun e => (e.1 / total, fun i => e.2 i / normOn L e.2))
      let mean := fun i => (units.map (fun e => e.1 * e.2 i)).sum
      let u0 := if normOn L mean < tol then fun i => v0.2 i / normOn L v0.2 else fun i => mean i / normOn L mean
      (karcherLoop L tol units maxIter u0).map (fun u i => s * u i)

/-- `karcher_merge_tensors`, karcher.py:110-195, on flattened tensors with `n` entries and weights. -/
def karcherMerge (n : Nat) (maxIter : Nat) (tol : ℝ) (ts : List (ℝ × (Nat → ℝ))) : Except Err (Nat → ℝ) :=
  match ts with
  | [(_, x)] => .ok x
  | _ =>
    let L := List.range n
    karcherValid L maxIter tol (ts.map (fun e => e.1 * normOn L e.2)).sum (ts.filter (fun e => decide (normOn L e.2 > tol)))

/-- `KarcherTask.execute`, karcher.py:40-57. -/
def karcherTask {M : Type} (isEmbed : Bool) (maxIter : Nat) (tol : ℝ) (tensors : List (M × Tensor ℝ)) : Except Err (Tensor ℝ) :=
  match tensors with
  | [(_, x)] => .ok x
  | [] => .error .count
  | _ =>
    let ts := karcherRectify isEmbed (tensors.map Prod.snd)
    match ts with
    | [] => .error .count
    | t :: rest =>
      if rest.all (fun x => x.shape = t.shape) then
        match karcherMerge t.numel maxIter tol ((t :: rest).map (fun x => (1 / ((t :: rest).length : ℝ), x.get))) with
        | .error e => .error e
        | .ok r => .ok ⟨t.shape, r⟩
      else .error .shape

/-! ## Model Stock -/

/-- All pairs of elements at different positions, the first before the second (the loops of model_stock.py:68-70). -/
def pairs {A : Type} : List A → List (A × A)
  | [] => []
  | a :: rest => rest.map (fun b => (a, b)) ++ pairs rest

/-- `cos_theta` of a pair of offsets on a line, model_stock.py:72-77. -/
def stockCos (L : List Nat) (p : (Nat → ℝ) × (Nat → ℝ)) : ℝ :=
  clamp (-1) 1 (dotOn L p.1 p.2 / max (normOn L p.1 * normOn L p.2) (1 / 1000000))

/-- The average cosine on a line, model_stock.py:67-80. -/
def stockMeanCos (L : List Nat) (offsets : List (Nat → ℝ)) : ℝ :=
  ((pairs offsets).map (stockCos L)).sum / ((pairs offsets).length : ℝ)

/-- The line through position `i`, model_stock.py:50-57. -/
def stockLine (filterWise : Bool) (shape : List Nat) (i : Nat) : List Nat :=
  if filterWise then
    let c := shape.getLastD 1
    (List.range c).map (fun j => i / c * c + j)
  else List.range shape.prod

/-- `ModelStockMergeTask.execute`, model_stock.py:33-99.  `none` is returned for optional weights in too few models. -/
def modelStock {M : Type} [DecidableEq M] (isEmbed optional filterWise : Bool) (baseModel : M) (tensors : List (M × Tensor ℝ)) :
    Except Err (Option (Tensor ℝ)) :=
  if tensors.length = 1 ∧ (lookup tensors baseModel).isSome then .ok (lookup tensors baseModel)
  else if tensors.length < 3 then
    if optional then .ok none else .error .count
  else
    match lookup tensors baseModel with
    | none => .error .noBase
    | some b =>
      match rectify isEmbed (b :: (tensors.filter (fun e => decide (e.1 ≠ baseModel))).map Prod.snd) with
      | [] => .error .shape
      | w0 :: ws =>
        if ws.all (fun w => w.shape = w0.shape) then
          let offsets := ws.map (fun w => fun i => w.get i - w0.get i)
          let N : ℝ := ws.length
          let cos := fun i => stockMeanCos (stockLine filterWise w0.shape i) offsets
          if (List.range w0.numel).any (fun i => decide (1 + (N - 1) * cos i = 0)) then .error .nonFinite
          else
            .ok (some ⟨w0.shape, fun i =>
              let t := N * cos i / (1 + (N - 1) * cos i)
              t * ((ws.map (fun w => w.get i)).sum / N) + (1 - t) * w0.get i⟩)
        else .error .shape

/-! ## Arcee Fusion -/

/-- `F.softmax(x, dim=-1) + eps` at position `i` with rows of length `c`, arcee_fusion.py:104-105. -/
def softmaxEps (c : Nat) (x : Nat → ℝ) (i : Nat) : ℝ :=
  Real.exp (x i) / ((List.range c).map (fun j => Real.exp (x (i / c * c + j)))).sum + 1 / 100000000

/-- `_compute_importance`, arcee_fusion.py:100-107. -/
def importance (c : Nat) (params base : Nat → ℝ) (i : Nat) : ℝ :=
  |params i - base i| * ((List.range c).map (fun j =>
    softmaxEps c params (i / c * c + j) *
      Real.log (softmaxEps c params (i / c * c + j) / softmaxEps c base (i / c * c + j)))).sum

/-- `torch.sort(x).values`.  [merge_methods/arcee_fusion.py:22-37] -/
def sortReal (l : List ℝ) : List ℝ := l.mergeSort (fun a b => decide (a ≤ b))

/-- `approximate_quantiles` for the quantile `num / 4`, arcee_fusion.py:22-37; `sample` is the choice of a million entries out of more. -/
def quantile (sample : List ℝ → List ℝ) (num : Nat) (l : List ℝ) : ℝ :=
  let l' := if l.length > 1000000 then sample l else l
  (sortReal l').getD (num * (l'.length - 1) / 4) 0

/-- `calculate_dynamic_threshold`, arcee_fusion.py:39-52: two calls, hence two samples. -/
def threshold (sample1 sample2 : List ℝ → List ℝ) (l : List ℝ) : ℝ :=
  quantile sample1 2 l + 3 / 2 * (quantile sample2 3 l - quantile sample2 1 l)

/-- `ArceeFusionMergeTask.execute`, arcee_fusion.py:71-98.  Tensors without dimensions are not modelled. -/
def arceeFusion {M : Type} [DecidableEq M] (sample1 sample2 : List ℝ → List ℝ) (isEmbed : Bool) (baseModel : M)
    (tensors : List (M × Tensor ℝ)) : Except Err (Tensor ℝ) :=
  match tensors with
  | [(_, x)] => .ok x
  | [a, b] =>
    if a.1 ≠ baseModel ∧ b.1 ≠ baseModel then .error .noBase
    else
      let p := if a.1 ≠ baseModel then (b, a) else (a, b)
      match rectify isEmbed [p.1.2, p.2.2] with
      | [base, other] =>
        if base.shape = other.shape then
          let score := importance (base.shape.getLastD 1) other.get base.get
          let th := threshold sample1 sample2 ((List.range base.numel).map score)
          .ok ⟨base.shape, fun i => base.get i + (other.get i - base.get i) * (if score i ≥ th then 1 else 0)⟩
        else .error .shape
      | _ => .error .shape
  | _ => .error .count

end

end Verif.Sphere
