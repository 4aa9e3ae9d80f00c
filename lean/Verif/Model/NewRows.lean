import Verif.Model.TokenSurgeon
import Mathlib.Data.Real.Basic
import Mathlib.Algebra.BigOperators.Ring.Finset
import Mathlib.Algebra.BigOperators.Pi

/-! # Rows for new tokens (`compute_new_embeddings`, `john_hewitt_init` in `/repo/mergekit/scripts/tokensurgeon.py`; `/repo/mergekit/tokensurgeon/token_basis.py`)

Over the reals.  The methods with models of their own (interpolation, matching pursuit, principal components, subwords) are parameters; here is how their
arguments are put together from the vocabularies and what is done with their results. -/

namespace Verif.NewRows

open Verif.Tok (NToken get)
open Verif.Surgeon (Emb Vocab)

noncomputable section

/-- How a call can fail.  [scripts/tokensurgeon.py:229-389; tokensurgeon/token_basis.py:12-66] -/
inductive Err where
  /-- `AssertionError` -/
  | assertion
  /-- `TypeError`: the length of a number, or a comparison of a number with something else -/
  | type
  /-- `IndexError`: an empty list as an index (which makes a tensor of floats) -/
  | index
  /-- an error of a method with a model of its own -/
  | method
deriving DecidableEq

/-- `ApproximationMethod`, scripts/tokensurgeon.py:70-80. -/
inductive Method where
  | commonInterpolation
  | subword
  | mean
  | zero
  | randn
  | johnHewitt
  | omp
  | landmarkPca
  | stb
  | mpRope
deriving DecidableEq

/-- What the libraries and the other methods do.  [scripts/tokensurgeon.py:229-389; tokensurgeon/token_basis.py:41-50] -/
structure Tools (dd od : Nat) where
  /-- `common_interp_approximate` or `batch_omp`: points and coefficients for one target -/
  combine : List (Fin dd → ℝ) → (Fin dd → ℝ) → Except Err (List (Nat × ℝ))
  /-- `landmark_pca_approximate` or `batch_mp_rope`: the row for one target -/
  direct : List (Fin dd → ℝ) → List (Fin od → ℝ) → (Fin dd → ℝ) → Except Err (Fin od → ℝ)
  /-- `subword_approximate` for one token -/
  pieces : NToken → Except Err (Fin od → ℝ)
  /-- `torch.randn`: a row for each position -/
  randn : Nat → Fin od → ℝ
  /-- a sample of a normal distribution with a mean and a covariance -/
  normal : (Fin od → ℝ) → (Fin od → Fin od → ℝ) → Nat → Fin od → ℝ
  /-- `torch.linalg.lstsq`: the coefficients of some vectors for a target -/
  lstsq : List (Fin dd → ℝ) → (Fin dd → ℝ) → List ℝ

/-- The mean of all rows, tokensurgeon.py:231, 269, 371, 387. -/
def mean {d : Nat} (m : Emb (Fin d → ℝ)) : Fin d → ℝ := fun j => (∑ i ∈ Finset.range m.rows, m.row i j) / m.rows

/-- The covariance, tokensurgeon.py:232-233. -/
def covariance {d : Nat} (m : Emb (Fin d → ℝ)) (a b : Fin d) : ℝ :=
  (∑ i ∈ Finset.range m.rows, (m.row i a - mean m a) * (m.row i b - mean m b)) / m.rows

/-- `torch.distributions.constraints.positive_definite.check`, tokensurgeon.py:234. -/
def PositiveDefinite {d : Nat} (c : Fin d → Fin d → ℝ) : Prop := ∀ x : Fin d → ℝ, x ≠ 0 → 0 < ∑ a, ∑ b, x a * c a b * x b

open Classical in
/-- `john_hewitt_init`, tokensurgeon.py:229-253.  Without a positive definite covariance it calls `len` of a number. -/
def johnHewitt {dd od : Nat} (o : Tools dd od) (orig : Emb (Fin od → ℝ)) (n : Nat) : Except Err (List (Fin od → ℝ)) :=
  if PositiveDefinite (covariance orig) then .ok ((List.range n).map (o.normal (mean orig) (covariance orig))) else .error .type

/-- `shared_vocab`, tokensurgeon.py:292-297.  (Tokens with the same id in the donor come in the order of a set.) -/
def shared (orig donor : Vocab) : List NToken :=
  ((donor.filter (fun e => decide (e.1 ∈ orig.map Prod.fst))).mergeSort (fun a b => decide (a.2 ≤ b.2))).map Prod.fst

/-- `embed[torch.tensor([vocab[t] for t in tokens])]`, tokensurgeon.py:298-304, 307.  The tokens are in the vocabulary, and the ids have rows. -/
def gather {d : Nat} (m : Emb (Fin d → ℝ)) (v : Vocab) (ts : List NToken) : List (Fin d → ℝ) := ts.map (fun t => m.row ((get v t).getD 0))

/-- The combination of some points, tokensurgeon.py:343-350; token_basis.py:110-130. -/
def apply {d : Nat} (points : List (Fin d → ℝ)) (c : List (Nat × ℝ)) : Fin d → ℝ := (c.map (fun e => e.2 • points.getD e.1 0)).sum

/-- The row by a combination of shared tokens, tokensurgeon.py:307, 314-326, 341-350. -/
def combined {dd od : Nat} (o : Tools dd od) (donorShared : List (Fin dd → ℝ)) (origShared : List (Fin od → ℝ)) (target : Fin dd → ℝ) :
    Except Err (Fin od → ℝ) := (o.combine donorShared target).map (apply origShared)

/-- The row by the sparse token basis, tokensurgeon.py:361-387: the donor's row without the mean of the donor, in terms of the donor's basis. -/
def byBasis {dd od : Nat} (o : Tools dd od) (donorBasis : List (Fin dd → ℝ)) (origBasis : List (Fin od → ℝ)) (donorMean : Fin dd → ℝ) (origMean : Fin od → ℝ)
    (target : Fin dd → ℝ) : Fin od → ℝ :=
  (List.zipWith (· • ·) (o.lstsq donorBasis (target - donorMean)) origBasis).sum + origMean

/-- Everything `compute_new_embeddings` works with: the matrices and the vocabularies (of tokens with rows).  [scripts/tokensurgeon.py:256-266] -/
structure Input (dd od : Nat) where
  orig : Emb (Fin od → ℝ)
  donor : Emb (Fin dd → ℝ)
  origVocab : Vocab
  donorVocab : Vocab

/-- The methods that use shared tokens, tokensurgeon.py:286-351. -/
def withShared {dd od : Nat} (i : Input dd od) (f : List (Fin dd → ℝ) → List (Fin od → ℝ) → (Fin dd → ℝ) → Except Err (Fin od → ℝ)) (ts : List NToken) :
    Except Err (List (Fin od → ℝ)) :=
  if shared i.origVocab i.donorVocab = [] then .error .index
  else (gather i.donor i.donorVocab ts).mapM (f (gather i.donor i.donorVocab (shared i.origVocab i.donorVocab)) (gather i.orig i.origVocab (shared i.origVocab i.donorVocab)))

/-- `compute_new_embeddings`, tokensurgeon.py:256-389. -/
def compute {dd od : Nat} (o : Tools dd od) (m : Method) (basis : Option (List (Fin dd → ℝ) × List (Fin od → ℝ))) (i : Input dd od) (ts : List NToken) :
    Except Err (List (Fin od → ℝ)) :=
  if ¬ (∀ t ∈ ts, t ∈ i.donorVocab.map Prod.fst) then .error .assertion
  else
    match m with
    | .mean => .ok (ts.map (fun _ => mean i.orig))
    | .zero => .ok (ts.map (fun _ => 0))
    | .randn => .ok ((List.range ts.length).map o.randn)
    | .johnHewitt => johnHewitt o i.orig ts.length
    | .commonInterpolation => withShared i (combined o) ts
    | .omp => withShared i (combined o) ts
    | .landmarkPca => withShared i o.direct ts
    | .mpRope => withShared i o.direct ts
    | .subword => ts.mapM o.pieces
    | .stb =>
      match basis with
      | none => .error .assertion
      | some b => .ok ((gather i.donor i.donorVocab ts).map (byBasis o b.1 b.2 (mean i.donor) (mean i.orig)))

/-! ## The token basis -/

/-- What is given for the parameter `k`.  [tokensurgeon/token_basis.py:75; scripts/tokensurgeon.py:434-441] -/
inductive Arg where
  | int (k : Nat)
  /-- the options of the command -/
  | options

/-- What the libraries do.  [tokensurgeon/token_basis.py:41-50] -/
structure BasisTools where
  /-- the first columns of `U` of `torch.linalg.svd`, of the covariance of the points -/
  directions : {d : Nat} → (Fin d → Fin d → ℝ) → List (Fin d → ℝ)
  /-- `batch_omp` for one target and `k` points -/
  pursuit : {d : Nat} → List (Fin d → ℝ) → (Fin d → ℝ) → Nat → List (Nat × ℝ)

/-- The points without their mean, token_basis.py:34-35. -/
def centered {d : Nat} (points : List (Fin d → ℝ)) : List (Fin d → ℝ) := points.map (fun p => p - (points.length : ℝ)⁻¹ • points.sum)

/-- The covariance of the points, token_basis.py:36-38. -/
def covarianceOf {d : Nat} (points : List (Fin d → ℝ)) (a b : Fin d) : ℝ := ((centered points).map (fun p => p a * p b)).sum / points.length

/-- `sparse_linear_basis`, token_basis.py:12-66 (the dimension of the basis is that of the points). -/
def sparseBasis (o : BasisTools) {d : Nat} (points : List (Fin d → ℝ)) (k : Arg) : Except Err (List (List (Nat × ℝ))) :=
  match k with
  | .options => .error .type
  | .int k =>
    if points.length < k then .error .assertion
    else .ok ((o.directions (covarianceOf points)).map (fun u => o.pursuit (centered points) u k))

/-- The shared tokens that are not junk, token_basis.py:90-96.  (They come in the order of a set.) -/
def commonTokens (orig donor : Vocab) (junk : List Nat) : List NToken :=
  (orig.map Prod.fst).filter (fun t => match get donor t with
    | none => false
    | some id => decide (id ∉ junk))

/-- `compute_token_basis`, token_basis.py:69-131: the basis of the donor and that of the original model. -/
def tokenBasis (o : BasisTools) {dd od : Nat} (i : Input dd od) (junk : List Nat) (k : Arg) : Except Err (List (Fin dd → ℝ) × List (Fin od → ℝ)) :=
  if commonTokens i.origVocab i.donorVocab junk = [] then .error .index
  else
    (if dd < od then sparseBasis o (gather i.donor i.donorVocab (commonTokens i.origVocab i.donorVocab junk)) k
      else sparseBasis o (gather i.orig i.origVocab (commonTokens i.origVocab i.donorVocab junk)) k).map fun cs =>
    (cs.map (apply (gather i.donor i.donorVocab (commonTokens i.origVocab i.donorVocab junk))),
     cs.map (apply (gather i.orig i.origVocab (commonTokens i.origVocab i.donorVocab junk))))

/-- The vocabularies `build_embedding_matrix` uses, tokensurgeon.py:409-412. -/
def Input.safe {dd od : Nat} (i : Input dd od) : Input dd od :=
  { i with origVocab := Surgeon.safe i.origVocab i.orig.rows, donorVocab := Surgeon.safe i.donorVocab i.donor.rows }

/-- `token_basis` in `build_embedding_matrix`, tokensurgeon.py:433-443: the last argument is the options, not their `k`. -/
def basisFor (bo : BasisTools) (m : Method) {dd od : Nat} (i : Input dd od) (junk : List Nat) : Except Err (Option (List (Fin dd → ℝ) × List (Fin od → ℝ))) :=
  if m = .stb then (tokenBasis bo i.safe (Surgeon.allJunk junk i.donorVocab i.donor.rows) .options).map some else .ok none

/-- An error of the approximation, for the model of `build_embedding_matrix`.  [scripts/tokensurgeon.py:496-506] -/
def lift {A : Type} (r : Except Err A) : Except Surgeon.Err A :=
  match r with
  | .ok a => .ok a
  | .error _ => .error .approximation

/-- `build_embedding_matrix`, tokensurgeon.py:392-523, with the methods above; noise and scaling as in the model it is made from. -/
def build {dd od : Nat} (ws : Char → Bool) (allowByte allowPrefix : Bool) (o : Tools dd od) (bo : BasisTools) (m : Method) (noise : Option (Nat → Nat → Fin od → ℝ))
    (scale : Option ((Fin od → ℝ) → Fin od → ℝ)) (batch : Option Int) (i : Input dd od) (junk : List Nat) : Except Surgeon.Err (Emb (Fin od → ℝ)) :=
  (Surgeon.outSize i.donorVocab).bind fun _ =>
  (lift (basisFor bo m i junk)).bind fun basis =>
  Surgeon.build ws allowByte allowPrefix { compute := fun ts => lift (compute o m basis i.safe ts), shared := decide (m = .mean), noise := noise, scale := scale }
    batch i.orig i.donor.rows i.origVocab i.donorVocab junk

end

end Verif.NewRows
