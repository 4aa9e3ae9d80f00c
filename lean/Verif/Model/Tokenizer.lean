import Verif.Model.ModelRef
import Mathlib.Algebra.Field.Defs
import Mathlib.Algebra.BigOperators.Group.List.Basic

/-! # Vocabularies, re-indexed embeddings, token normalization (`/repo/mergekit/tokenizer/`)

Tokens are of any type with decidable equality.  A vocabulary is a dictionary from tokens to ids.  Which id the tokenizers library gives to a
new token is a parameter (`fresh`), since that is not code of this project. -/

namespace Verif.Tok

variable {T M K : Type} [DecidableEq T] [DecidableEq M]

/-- How a step may fail.  [tokenizer/build.py:41-277, tokenizer/embed.py:30-180] -/
inductive Err where
  | index | key | assertion | validation | unbound | notImplemented | notFast | notBpe | load
deriving DecidableEq

/-- A python dictionary: look up a key.  [tokenizer/build.py:41-277] -/
def get {A B : Type} [DecidableEq A] (d : List (A × B)) (a : A) : Option B := (d.find? (fun e => decide (e.1 = a))).map Prod.snd

/-- A tokenizer as far as build.py uses it: the vocabulary of its model, and the added tokens (`added_tokens_decoder`, by content) with
their ids. -/
structure Tokenizer (T : Type) where
  model : List (T × Nat)
  added : List (T × Nat)
  fast : Bool := true
  bpe : Bool := true

/-- `tokenizer.get_vocab()`: model vocabulary and added tokens.  [tokenizer/build.py:41-277] -/
def Tokenizer.vocab (t : Tokenizer T) : List (T × Nat) :=
  t.model ++ t.added.filter (fun e => decide (e.1 ∉ t.model.map Prod.fst))

/-- `tokenizer.vocab_size`, which does not count added tokens.  [tokenizer/build.py:23-38] -/
def Tokenizer.size (t : Tokenizer T) : Nat := t.model.length

/-- `get_vocab_size(...) or default`, build.py:55-57 and 117-120: a missing size and 0 are replaced. -/
def orSize (cfg : Option Nat) (default : Nat) : Nat :=
  match cfg with
  | some (n + 1) => n + 1
  | _ => default

/-- `get_stripped_tokenizer`, build.py:41-103, without the merge rules of the tokenizer (87-101). -/
def stripped (cfg : Option Nat) (t : Tokenizer T) : Except Err (Tokenizer T) :=
  let n := orSize cfg t.vocab.length
  if t.vocab.all (fun e => decide (e.2 < n)) then .ok t
  else if t.fast = false then .error .notFast
  else if t.bpe = false then .error .notBpe
  else .ok { t with model := t.model.filter (fun e => decide (e.2 < n)), added := t.added.filter (fun e => decide (e.2 < n)) }

/-- `tokenizer.add_tokens(tok)`: known tokens keep their id (their settings may change), new ones get the id `fresh` says.  [tokenizer/build.py:106-169] -/
def addToken (fresh : Tokenizer T → Nat) (t : Tokenizer T) (tok : T) : Tokenizer T :=
  if tok ∈ t.vocab.map Prod.fst then t else { t with added := t.added ++ [(tok, fresh t)] }

/-- Append a key to an insertion-ordered dictionary, if new.  [tokenizer/build.py:116-150] -/
def insertNew (l : List T) (a : T) : List T := if a ∈ l then l else l ++ [a]

/-- One round of the loop build.py:116-150: the keys of `out_vocab` and of `out_added_tokens`.  (`tok in added_tokens` at 130 compares a
token with the integer keys of `added_tokens_decoder` and never holds.) -/
def unionStep (cfg : Option Nat) (t : Tokenizer T) (acc : List T × List T) : List T × List T :=
  let n := orSize cfg t.size
  (((t.vocab.filter (fun e => decide (e.2 < n))).map Prod.fst).foldl insertNew acc.1,
   ((t.added.filter (fun e => decide (e.2 < n))).map Prod.fst).foldl insertNew acc.2)

/-- `build_union_tokenizer`, build.py:106-169.  Saving and reloading the base tokenizer (153-157) is taken to give an equal one. -/
def unionTokenizer (fresh : Tokenizer T → Nat) (cfg : M → Option Nat) (base : Tokenizer T) (ts : List (M × Tokenizer T)) : Tokenizer T :=
  let acc := ts.foldl (fun acc e => unionStep (cfg e.1) e.2 acc) ([], [])
  let r := (acc.1.filter (fun tok => decide (tok ∉ acc.2 ∧ tok ∉ base.vocab.map Prod.fst))).foldl (addToken fresh) base
  acc.2.foldl (addToken fresh) r

/-- `tokenizer_source`, build.py:181. -/
inductive Source (M : Type) where
  | union | base
  | model (m : M)

/-- `TokenizerInfo`, build.py:172-175; a permutation maps output ids to rows, `none` standing for -1. -/
structure Info (T M : Type) where
  vocab : List (T × Nat)
  permutations : List (M × List (Nat × Option Nat))
  originalVocabs : List (M × List (T × Nat))

/-- One permutation, build.py:249-269.  Tokens whose id is not below the vocabulary size get no entry. -/
def permutation (cfg : Option Nat) (vocabOut modelVocab : List (T × Nat)) : List (Nat × Option Nat) :=
  let n := cfg.getD modelVocab.length
  vocabOut.filterMap (fun e =>
    match get modelVocab e.1 with
    | none => some (e.2, none)
    | some orig => if orig ≥ n then none else some (e.2, some orig))

/-- `build_tokenizer`, build.py:178-277.  `load` gives the tokenizers that can be loaded, `cfg` the configured vocabulary sizes.  With source
"base" the output tokenizer is the base model's tokenizer object itself (226), so that tokens added to it (234-235) are in the base's vocabulary
from then on. -/
def buildTokenizer (fresh : Tokenizer T → Nat) (load : M → Option (Tokenizer T)) (cfg : M → Option Nat) (baseModel : Option M)
    (refs : List M) (source : Source M) (addTokens : List T) : Except Err (Info T M) :=
  match (match baseModel with
    | some b => some b
    | none => refs.head?) with
  | none => .error .index
  | some b =>
    match load b with
    | none => .error .load
    | some tb =>
      match stripped (cfg b) tb with
      | .error e => .error e
      | .ok base =>
        let others := (refs.filter (fun m => decide (m ≠ b))).filterMap (fun m => (load m).map (fun t => (m, t)))
        let out : Except Err (Tokenizer T) := match source with
          | .model m => match load m with
            | none => .error .load
            | some t => .ok t
          | .base => .ok base
          | .union => .ok (unionTokenizer fresh cfg base ((b, base) :: others))
        match out with
        | .error e => .error e
        | .ok out =>
          let out := addTokens.foldl (addToken fresh) out
          let base' := match source with
            | .base => out
            | _ => base
          let toks := (b, base') :: others
          .ok ⟨out.vocab,
            refs.map (fun m => (m, permutation (cfg m) out.vocab (match get toks m with
              | some t => t.vocab
              | none => base'.vocab))),
            toks.map (fun e => (e.1, e.2.vocab))⟩

/-! ## Embeddings -/

/-- A two-dimensional tensor: rows are functions on the columns.  [tokenizer/embed.py:30-108] -/
structure Emb (K : Type) where
  width : Nat
  rows : List (Nat → K)

/-- `TokenEmbeddingConfig.source`, config.py:32-34.  Exactly one of id and token is given for a row of a model (17-23). -/
inductive TokSource (T M : Type) where
  | zero
  | row (m : M) (tok : Int ⊕ T)
  | model (m : M)
  | unset

/-- `TokenEmbeddingConfig`, config.py:32-34. -/
structure TokCfg (T M : Type) where
  source : TokSource T M
  force : Bool

/-- Python's `d[k]`.  [tokenizer/embed.py:66-69, 82-94] -/
def getKey {A B : Type} [DecidableEq A] (d : List (A × B)) (a : A) : Except Err B :=
  match get d a with
  | none => .error .key
  | some b => .ok b

/-- Padded size, embed.py:42-45. -/
def padded (n : Nat) (pad : Option Nat) : Nat :=
  match pad with
  | none => n
  | some p => if p ≠ 0 ∧ n % p ≠ 0 then (n / p + 1) * p else n

/-- Padded size in the configuration, merge.py:351-353. -/
def paddedConfig (n : Nat) (pad : Option Nat) : Nat :=
  match pad with
  | none => n
  | some p => if p ≠ 0 ∧ n % p ≠ 0 then n + p - n % p else n

/-- Where the default row of a token comes from: an entry of `token_configs`, or the set of tokens to average.  [tokenizer/embed.py:110-143] -/
inductive Choice (T M : Type) where
  | cfg (c : TokCfg T M)
  | average

/-- The round for one token of `assign_embedding_sources`, embed.py:117-142.  `ZeroEmbedding()` lacks its required field `kind` and raises a
validation error (130). -/
def assignOne (perms : List (M × List (Nat × Option Nat))) (models : List M) (base : Option M) (tokens : List (T × TokCfg T M))
    (tok : T) (id : Nat) : Except Err (Choice T M) :=
  match get tokens tok with
  | some c => .ok (.cfg c)
  | none =>
    match models.mapM (fun m => (getKey perms m).bind (fun p => getKey p id)) with
    | .error e => .error e
    | .ok has =>
      match (models.zip has).filter (fun e => e.2.isSome) with
      | [] => .error .validation
      | [d] => .ok (.cfg ⟨.model d.1, false⟩)
      | _ =>
        match base with
        | none => .ok .average
        | some b =>
          match (getKey perms b).bind (fun p => getKey p id) with
          | .error e => .error e
          | .ok (some _) => .ok (.cfg ⟨.model b, false⟩)
          | .ok none => .ok .average

/-- `tensors[model][k]`.  [tokenizer/embed.py:69, 94, 172, 177] -/
def rowOf (tensors : List (M × Emb K)) (m : M) (k : Nat) : Except Err (Nat → K) :=
  (getKey tensors m).bind (fun e => match e.rows[k]? with
    | none => .error .index
    | some r => .ok r)

section
variable [Field K]

/-- `compute_default_embedding`, embed.py:145-180: for a zero source no embedding is assigned before it is returned. -/
def computeDefault (info : Info T M) (tensors : List (M × Emb K)) (id : Nat) (c : TokCfg T M) : Except Err (Nat → K) :=
  match c.source with
  | .zero => .error .unbound
  | .unset => .error .notImplemented
  | .row m src =>
    match get info.permutations m with
    | none => .error .assertion
    | some _ =>
      let sid : Except Err Int := match src with
        | .inl i => .ok i
        | .inr tok => (getKey info.originalVocabs m).bind (fun v => match get v tok with
          | none => .error .assertion
          | some i => .ok (i : Int))
      sid.bind (fun i => (getKey tensors m).bind (fun e =>
        if i < 0 then .error .assertion
        else match e.rows[i.toNat]? with
          | none => .error .assertion
          | some r => .ok r))
  | .model m =>
    (getKey info.permutations m).bind (fun p => (getKey p id).bind (fun k => match k with
      | none => .error .assertion
      | some k => rowOf tensors m k))

/-- The row to add for a model, if it has the token, embed.py:66-69. -/
def heldRow (info : Info T M) (tensors : List (M × Emb K)) (id : Nat) (m : M) : Except Err (Option (Nat → K)) :=
  (getKey info.permutations m).bind (fun p => (getKey p id).bind (fun k => match k with
    | none => .ok none
    | some k => (rowOf tensors m k).map some))

/-- The average of the rows of the models that have the token, embed.py:63-71. -/
def averageRow (info : Info T M) (tensors : List (M × Emb K)) (models : List M) (id : Nat) : Except Err (Nat → K) :=
  match models.mapM (heldRow info tensors id) with
  | .error e => .error e
  | .ok rows =>
    let present := rows.filterMap (fun r => r)
    .ok (fun c => (present.map (fun r => r c)).sum / (present.length : K))

/-- The default row of a token, embed.py:61-79. -/
def defaultRow (info : Info T M) (tensors : List (M × Emb K)) (models : List M) (id : Nat) (ch : Choice T M) : Except Err (Nat → K) :=
  match ch with
  | .average => averageRow info tensors models id
  | .cfg c => computeDefault info tensors id c

/-- One row of the new embedding of a model, embed.py:89-100. -/
def newRow (tensors : List (M × Emb K)) (m : M) (p : List (Nat × Option Nat)) (id : Nat) (ch : Choice T M) (dflt : Nat → K) :
    Except Err (Nat → K) :=
  let force := match ch with
    | .cfg c => c.force
    | .average => false
  (getKey p id).bind (fun k => match k with
    | some k => if force then .ok dflt else rowOf tensors m k
    | none => .ok dflt)

/-- The new embedding of a model, embed.py:82-106.  `rows` are the ids and rows of the tokens; writing a row at an id beyond the (padded) size
raises an error; rows beyond the number of tokens become the mean of those before. -/
def assemble (width n size : Nat) (rows : List (Nat × (Nat → K))) : Except Err (Emb K) :=
  if rows.all (fun e => decide (e.1 < size)) then
    let tab : Nat → Nat → K := fun k => (get rows k).getD (fun _ => 0)
    let mean : Nat → K := fun c => ((List.range n).map (fun k => tab k c)).sum / (n : K)
    .ok ⟨width, (List.range size).map (fun k => if n ≤ k then mean else tab k)⟩
  else .error .index

/-- The new embedding of model `m`, embed.py:82-106; `plan` holds token, id, choice and default row. -/
def newEmb (info : Info T M) (tensors : List (M × Emb K)) (width size : Nat) (plan : List (T × Nat × Choice T M × (Nat → K))) (m : M) :
    Except Err (M × Emb K) :=
  (getKey info.permutations m).bind (fun p =>
    (plan.mapM (fun e => (newRow tensors m p e.2.1 e.2.2.1 e.2.2.2).map (fun r => (e.2.1, r)))).bind (fun rows =>
      (assemble width plan.length size rows).map (fun e => (m, e))))

/-- `PermutedEmbeddings.execute`, embed.py:30-108.  `models` are the models in the order in which python iterates over the set of the tensors'
models and the base model (37-40).  Number formats and devices are left out. -/
def permutedEmbeddings (info : Info T M) (tensors : List (M × Emb K)) (tokens : List (T × TokCfg T M)) (pad : Option Nat)
    (base : Option M) (models : List M) : Except Err (List (M × Emb K)) :=
  match models.head? with
  | none => .error .index
  | some m0 =>
    (getKey tensors m0).bind (fun e0 =>
      if tensors.all (fun e => decide (e.2.width = e0.width)) then
        (info.vocab.mapM (fun e => (assignOne info.permutations models base tokens e.1 e.2).map (fun ch => (e.1, e.2, ch)))).bind
          (fun choices =>
            (choices.mapM (fun e => (defaultRow info tensors models e.2.1 e.2.2).map (fun r => (e.1, e.2.1, e.2.2, r)))).bind
              (fun plan => models.mapM (newEmb info tensors e0.width (padded info.vocab.length pad) plan)))
      else .error .assertion)

end

/-! ## Token normalization -/

open Verif.ModelRef (Str)

/-- `TokenMarker`, normalization.py:11-13. -/
inductive Marker where
  | special | wordStart
deriving DecidableEq

/-- `NormalizedToken`, normalization.py:16: a string, or a marker and a string. -/
abbrev NToken := Option Marker × Str

/-- `normalize_token`, normalization.py:19-35. -/
def normalize (special : List (Str × List Str)) (wordStart : Str) (tok : Str) : NToken :=
  if wordStart.isPrefixOf tok then (some .wordStart, tok.drop wordStart.length)
  else
    match special.find? (fun e => decide (tok ∈ e.2)) with
    | some e => (some .special, e.1)
    | none => (none, tok)

/-- `unnormalize_token`, normalization.py:38-43. -/
def unnormalize (t : NToken) : Str :=
  match t.1 with
  | some .wordStart => ' ' :: t.2
  | _ => t.2

/-- The loop of `token_prefixes`, normalization.py:57-64, for lengths `i`, `i - 1`, ..., 1.  `ws` are the characters `strip` removes. -/
def prefixLoop (ws : Char → Bool) (allow : Bool) (marker : Option Marker) (s : Str) : Nat → List NToken
  | 0 => []
  | i + 1 =>
    if allow = false ∧ (s.take (i + 1)).all ws then []
    else (marker, s.take (i + 1)) :: prefixLoop ws allow marker s i

/-- `token_prefixes`, normalization.py:46-64. -/
def tokenPrefixes (ws : Char → Bool) (allow : Bool) (t : NToken) : List NToken :=
  if t.1 = some .special then [] else prefixLoop ws allow t.1 t.2 (t.2.length - 1)

/-- A python dictionary comprehension: the last value of a key wins.  [tokenizer/normalization.py:114-121] -/
def lastWins {A B : Type} [DecidableEq A] (l : List (A × B)) (a : A) : Option B := get l.reverse a

/-- `normalized_vocabulary`, normalization.py:67-121 (the choice of the word start prefix by tokenizer class is a parameter), as a look-up. -/
def normalizedVocab (special : List (Str × List Str)) (wordStart : Str) (vocab : List (Str × Nat)) : NToken → Option Nat :=
  lastWins (vocab.map (fun e => (normalize special wordStart e.1, e.2)))

end Verif.Tok
