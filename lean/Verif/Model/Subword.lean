import Mathlib.Data.Rat.Defs
import Mathlib.Algebra.Field.Defs
import Mathlib.Algebra.Module.Defs
import Verif.Model.TokenSurgeon

/-! # New tokens from their pieces (`/repo/mergekit/tokensurgeon/subword.py`)

Rows are vectors over a field; the tokenizer of the original model is a function from texts to token ids. -/

namespace Verif.Subword

open Verif.ModelRef (Str)
open Verif.Tok (NToken unnormalize)
open Verif.Surgeon (Emb)

variable {K V : Type} [Field K] [AddCommGroup V] [Module K V]

/-- `SubwordMethod`, subword.py:13-17. -/
inductive Method where
  | mean
  | sum
  | weightedMean
  | firstLast
deriving DecidableEq

/-- `orig_embed[id]`; ids beyond the matrix are an `IndexError`.  [tokensurgeon/subword.py:37-58] -/
def rowOf (orig : Emb V) (id : Nat) : Option V := if id < orig.rows then some (orig.row id) else none

/-- The rows of the pieces: `none` is the `IndexError`.  [tokensurgeon/subword.py:37-58] -/
def rowsOf (orig : Emb V) (ids : List Nat) : Option (List V) := ids.mapM (rowOf orig)

/-- `sum(w * row)` in the order of the loop, subword.py:48-49. -/
def weightedSum (K : Type) [Field K] [Module K V] (ws : List Nat) (rows : List V) : V := ((rows.zip ws).map (fun e => ((e.2 : Nat) : K) • e.1)).foldl (· + ·) 0

/-- The weights 1, 2, ..., subword.py:43-47: the list is reversed for the input embeddings. -/
def pieceWeights (head : Bool) (n : Nat) : List Nat := if head then List.range' 1 n else (List.range' 1 n).reverse

/-- The new row made of the rows of the pieces, subword.py:37-58. -/
def combine (K : Type) [Field K] [Module K V] (method : Method) (head : Bool) (rows : List V) : V :=
  match method with
  | .sum => rows.foldl (· + ·) 0
  | .mean => if rows.length > 0 then ((rows.length : Nat) : K)⁻¹ • rows.foldl (· + ·) 0 else rows.foldl (· + ·) 0
  | .weightedMean =>
    if rows.length > 0 then (((pieceWeights head rows.length).sum : Nat) : K)⁻¹ • weightedSum K (pieceWeights head rows.length) rows
    else weightedSum K (pieceWeights head rows.length) rows
  | .firstLast => if head then rows.head?.getD 0 else rows.getLast?.getD 0

/-- The pieces whose rows are read: for `first_last` only one of them.  [tokensurgeon/subword.py:37-58] -/
def touched (method : Method) (head : Bool) (ids : List Nat) : List Nat :=
  match method with
  | .firstLast => if head then ids.head?.toList else ids.getLast?.toList
  | _ => ids

/-- The row for one token, subword.py:33-58. -/
def rowFor (K : Type) [Field K] [Module K V] (tokenize : Str → List Nat) (method : Method) (head : Bool) (orig : Emb V) (t : NToken) : Option V :=
  match rowsOf orig (touched method head (tokenize (unnormalize t))) with
  | none => none
  | some rows => some (combine K method head rows)

/-- `subword_approximate`, subword.py:20-61: one row for each token. -/
def approximate (K : Type) [Field K] [Module K V] (tokenize : Str → List Nat) (method : Method) (head : Bool) (orig : Emb V) (targets : List NToken) : Option (List V) :=
  targets.mapM (rowFor K tokenize method head orig)

end Verif.Subword
