import Verif.Model.TokenSurgeon
import Mathlib.Analysis.Real.Sqrt
import Mathlib.Algebra.BigOperators.Intervals
import Mathlib.Algebra.Order.Floor.Semiring
import Mathlib.Algebra.Order.Archimedean.Real.Basic

/-! # Well-trained tokens (`/repo/mergekit/tokensurgeon/magikarp.py`, and its use in `/repo/mergekit/scripts/tokensurgeon.py`)

Over the reals.  Rows are functions on the numbers of which the first `d` matter. -/

namespace Verif.Magikarp

open Finset
open Verif.ModelRef (Str)
open Verif.Tok (NToken unnormalize)
open Verif.Surgeon (Emb Vocab)

noncomputable section

/-- How the search can fail.  [tokensurgeon/magikarp.py:42-47, 57] -/
inductive Err where
  /-- a row that is not there: `IndexError` -/
  | index
  /-- the quantile of nothing: `RuntimeError` -/
  | runtime
deriving DecidableEq

/-- Rows of real numbers.  [tokensurgeon/magikarp.py:13-14] -/
abbrev Rows := Emb (Nat → ℝ)

/-- `p in s` for strings, magikarp.py:38. -/
def occurs (p s : Str) : Bool := s.tails.any (fun t => p.isPrefixOf t)

/-- Whether the name of a token says that it is not used, magikarp.py:37-38. -/
def named (t : NToken) : Bool := occurs cs!"unused_token" (unnormalize t) || occurs cs!"reserved_special_token" (unnormalize t)

/-- `unused_indices`, magikarp.py:33-40.  The keys of the vocabulary are taken to be different, as they are in a dictionary. -/
def unused (v : Vocab) (rows : Nat) (known : List NToken) : Finset Nat :=
  (range rows \ (v.map Prod.snd).toFinset) ∪ ((v.filter (fun e => decide (e.1 ∈ known) || named e.1)).map Prod.snd).toFinset

/-- The length of a row, magikarp.py:56. -/
def norm (d : Nat) (x : Nat → ℝ) : ℝ := Real.sqrt (∑ l ∈ range d, x l ^ 2)

/-- `torch.nn.functional.cosine_similarity`, magikarp.py:68-70, 88-90, with its default `eps`. -/
def cosine (d : Nat) (x y : Nat → ℝ) : ℝ := (∑ l ∈ range d, x l * y l) / (max (norm d x) (1 / 10 ^ 8) * max (norm d y) (1 / 10 ^ 8))

/-- The mean of some rows, magikarp.py:43-46. -/
def meanRow (m : Rows) (s : Finset Nat) (l : Nat) : ℝ := (∑ i ∈ s, m.row i l) / s.card

/-- `torch.quantile` (with linear interpolation), magikarp.py:57, 71, 91, of a list that is not empty and a number between 0 and 1. -/
def quantile (xs : List ℝ) (q : ℝ) : ℝ :=
  let s := xs.mergeSort (fun a b => decide (a ≤ b))
  let r := q * ((xs.length - 1 : Nat) : ℝ)
  s.getD ⌊r⌋₊ 0 + (r - ⌊r⌋₊) * (s.getD ⌈r⌉₊ 0 - s.getD ⌊r⌋₊ 0)

/-- A number for each row, in order.  [tokensurgeon/magikarp.py:56, 68-70] -/
def column (m : Rows) (f : (Nat → ℝ) → ℝ) : List ℝ := (List.range m.rows).map (fun i => f (m.row i))

/-- `l2_bad_indices`, magikarp.py:56-64. -/
def short (d : Nat) (m : Rows) (q : ℝ) : Finset Nat := (range m.rows).filter (fun i => norm d (m.row i) < quantile (column m (norm d)) q)

/-- The threshold for the similarity, magikarp.py:71-77, 91-97. -/
def threshold (xs : List ℝ) (q : ℝ) : ℝ := if quantile xs (1 - q) < 1 / 2 then 1 / 2 else quantile xs (1 - q)

/-- `cos_bad_indices`, magikarp.py:66-83, 86-103. -/
def similar (d : Nat) (m : Rows) (mean : Nat → ℝ) (q : ℝ) : Finset Nat :=
  (range m.rows).filter (fun i => threshold (column m (fun x => cosine d x mean)) q < cosine d (m.row i) mean)

/-- `bad_indices`, magikarp.py:52-103; `d` and `d'` are the sizes of the rows of the two matrices. -/
def bad (d d' : Nat) (v : Vocab) (embed : Rows) (head : Option Rows) (known : List NToken) (q : ℝ) : Finset Nat :=
  let u := unused v embed.rows known
  u ∪ (match head with
    | none => ∅
    | some _ => short d embed q) ∪
  (if u = ∅ then ∅
    else similar d embed (meanRow embed u) q ∪ (match head with
      | none => ∅
      | some h => similar d' h (meanRow h u) q))

/-- `well_trained_tokens`, magikarp.py:11-108. -/
def wellTrained (d d' : Nat) (v : Vocab) (embed : Rows) (head : Option Rows) (known : List NToken) (q : ℝ) : Except Err (List NToken) :=
  let u := unused v embed.rows known
  if ¬ (∀ i ∈ u, i < embed.rows ∧ ∀ h, head = some h → i < h.rows) then .error .index
  else if head.isSome ∧ embed.rows = 0 then .error .runtime
  else .ok ((v.filter (fun e => decide (e.2 ∉ bad d d' v embed head known q))).map Prod.fst)

/-- What `--magikarp` makes of the original vocabulary, scripts/tokensurgeon.py:690-698. -/
def commonVocab (good goodDonor : List NToken) (v : Vocab) : Vocab := v.filter (fun e => decide (e.1 ∈ good) && decide (e.1 ∈ goodDonor))

/-- `junk_tokens`, scripts/tokensurgeon.py:699-704. -/
def junk (good goodDonor : List NToken) (donor : Vocab) : List Nat :=
  (donor.filter (fun e => decide (e.1 ∉ goodDonor) && decide (e.1 ∉ good))).map Prod.snd

/-- A model as far as the search needs it: its vocabulary, the matrices and the sizes of their rows.  [scripts/tokensurgeon.py:667-672] -/
structure Source where
  vocab : Vocab
  embed : Rows
  dim : Nat
  head : Option Rows
  headDim : Nat

/-- The vocabulary and the junk tokens used by the rest of `main`, scripts/tokensurgeon.py:674-706. -/
def select (magikarp : Bool) (orig donor : Source) : Except Err (Vocab × List Nat) :=
  if magikarp then
    (wellTrained orig.dim orig.headDim orig.vocab orig.embed orig.head [] (1 / 100)).bind fun good =>
    (wellTrained donor.dim donor.headDim donor.vocab donor.embed donor.head [] (1 / 100)).bind fun goodDonor =>
    .ok (commonVocab good goodDonor orig.vocab, junk good goodDonor donor.vocab)
  else .ok (orig.vocab, [])

end

end Verif.Magikarp
