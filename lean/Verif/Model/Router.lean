import Verif.Model.Moe
import Verif.Model.TokenSurgeon
import Mathlib.Analysis.Real.Sqrt
import Mathlib.Algebra.BigOperators.Pi
import Mathlib.Algebra.Module.Pi

/-! # Gate vectors of a mixture of experts (`/repo/mergekit/moe/router.py`)

Over the reals.  The tokenizer and the model are parameters; padding is done here, as it decides which positions count. -/

namespace Verif.Router

open Finset
open Verif.ModelRef (Str)
open Verif.Surgeon (Emb)

noncomputable section

/-- How the computation can fail.  [moe/router.py:18-151] -/
inductive Err where
  /-- `TypeError`: no prompts given, or an unknown mode -/
  | type
  /-- `RuntimeError` of the tensor library: an id that is too large, matrices that do not fit, nothing to stack -/
  | runtime
  /-- `IndexError`: the last of no positions -/
  | index
  /-- `ValueError`: there is no token to pad with -/
  | value
deriving DecidableEq

/-- A vector with the hidden size.  [moe/router.py:28] -/
abbrev Vec (n : Nat) := Fin n → ℝ

/-- The length of a vector, router.py:53, 148. -/
def norm {n : Nat} (v : Vec n) : ℝ := Real.sqrt (∑ j, v j ^ 2)

/-- A vector by its length (or `1e-8`), router.py:53-55, 148. -/
def unit {n : Nat} (v : Vec n) : Vec n := fun j => v j / max (norm v) (1 / 10 ^ 8)

/-- What a tokenizer makes of prompts, before padding, with the token to pad with.  [moe/router.py:60-68; scripts/moe.py:40-43] -/
structure Encoded where
  prompts : List (List Nat)
  pad : Nat

/-- The length of the longest prompt.  [moe/router.py:60-68] -/
def Encoded.width (x : Encoded) : Nat := (x.prompts.map List.length).foldr max 0

/-- `input_ids`: prompts padded on the left, router.py:63-68; scripts/moe.py:40. -/
def Encoded.ids (x : Encoded) : List (List Nat) := x.prompts.map (fun t => List.replicate (x.width - t.length) x.pad ++ t)

/-- `attention_mask`.  [moe/router.py:63-68] -/
def Encoded.mask (x : Encoded) : List (List Nat) := x.prompts.map (fun t => List.replicate (x.width - t.length) 0 ++ List.replicate t.length 1)

/-- `get_cheap_embedding`, router.py:39-57. -/
def cheap {n : Nat} (embed : Emb (Vec n)) (layers vocab : Nat) (x : Encoded) : Except Err (List (Vec n)) :=
  if ¬ (∀ row ∈ x.ids, ∀ i ∈ row, i < vocab) then .error .runtime
  else if embed.rows ≠ vocab then .error .runtime
  else .ok (List.replicate layers
    (unit (List.zipWith (fun r m => (List.zipWith (fun i (w : Nat) => (w : ℝ) • embed.row i) r m).sum) x.ids x.mask).sum))

/-- The hidden states of one layer: prompt, position.  [moe/router.py:26-28] -/
abbrev States (n : Nat) := Nat → Nat → Vec n

/-- `get_hidden_states`, router.py:18-36: `model` gives the input of every layer and the output of the last one.  (With the average of no positions
the result would be NaN; it is an error here.) -/
def hidden {n : Nat} (model : List (List Nat) → List (List Nat) → List (States n)) (average : Bool) (x : Encoded) : Except Err (List (Vec n)) :=
  if x.width = 0 then .error .index
  else .ok ((model x.ids x.mask).dropLast.map fun h =>
    (x.prompts.length : ℝ)⁻¹ • ∑ b ∈ range x.prompts.length,
      (if average then (x.width : ℝ)⁻¹ • ∑ p ∈ range x.width, h b p else h b (x.width - 1)))

/-- The tokenizer: the tokens of a text, and the special tokens (text and id).  [moe/router.py:60-68; scripts/moe.py:37-43] -/
structure Tokenizer where
  encode : Str → List Nat
  bos : Option (Str × Nat)
  eos : Option (Str × Nat)

/-- `tokenize_prompts`, router.py:60-68, with the token to pad with of scripts/moe.py:41-43.  (No prompts at all are refused before, by `is_bad_config`;
here they are an error.) -/
def tokenize (t : Tokenizer) (prompts : List Str) : Except Err Encoded :=
  if prompts = [] then .error .runtime
  else
    match t.bos, t.eos with
    | some b, _ => .ok ⟨prompts.map (fun p => t.encode (b.1 ++ p)), b.2⟩
    | none, some e => .ok ⟨prompts.map (fun p => t.encode p), e.2⟩
    | none, none => .error .value

/-- Everything else `get_gate_params` works with.  [moe/router.py:71-138] -/
structure Source (n : Nat) where
  embed : Emb (Vec n)
  layers : Nat
  vocab : Nat
  model : List (List Nat) → List (List Nat) → List (States n)
  /-- `torch.randn` -/
  randn : Nat → Nat → Vec n
  /-- `torch.rand` -/
  rand : Nat → Nat → Vec n

/-- `_do_it`, router.py:102-138. -/
def probe {n : Nat} (s : Source n) (mode : Str) (x : Encoded) : Except Err (List (Vec n)) :=
  if mode = cs!"cheap_embed" then cheap s.embed s.layers s.vocab x
  else if mode = cs!"hidden" ∨ mode = cs!"hidden_avg" ∨ mode = cs!"hidden_last" then hidden s.model (decide (mode = cs!"hidden_avg")) x
  else .error .type

/-- The vectors of one expert, router.py:141-149. -/
def gateOf {M K : Type} {n : Nat} (t : Tokenizer) (s : Source n) (mode : Str) (e : Moe.Expert M K) : Except Err (List (Vec n)) :=
  match e.positive with
  | none => .error .type
  | some p =>
    ((tokenize t p).bind (probe s mode)).bind fun h =>
    (if Moe.given e.negative then ((tokenize t (e.negative.getD [])).bind (probe s mode)).map (List.zipWith (fun a b => a - b) h) else .ok h).map
      (List.map unit)

/-- `get_gate_params`, router.py:71-151: for each layer, a vector for each expert. -/
def params {M K : Type} {n : Nat} (t : Tokenizer) (s : Source n) (mode : Str) (experts : List (Moe.Expert M K)) : Except Err (List (List (Vec n))) :=
  if mode = cs!"random" then .ok ((List.range s.layers).map (fun l => (List.range experts.length).map (s.randn l)))
  else if mode = cs!"uniform_random" then
    .ok ((List.range s.layers).map (fun l => (List.range experts.length).map (fun e j => s.rand l e j * 2 * Real.sqrt (1 / n) - Real.sqrt (1 / n))))
  else
    (experts.mapM (gateOf t s mode)).bind fun vs =>
    match vs with
    | [] => .error .runtime
    | v :: _ => .ok ((List.range v.length).map (fun l => vs.filterMap (fun v => v[l]?)))

end

end Verif.Router
