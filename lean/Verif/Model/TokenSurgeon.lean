import Verif.Model.Chars
import Verif.Model.Tokenizer

/-! # Transplanting a vocabulary (`/repo/mergekit/scripts/tokensurgeon.py`)

Rows of embeddings are of any type with a zero and a sum.  The approximation of missing tokens is a parameter (the methods have models of their own). -/

namespace Verif.Surgeon

open Verif.ModelRef (Str)
open Verif.Tok (NToken Marker get normalize tokenPrefixes)

/-- How a run can fail.  [scripts/tokensurgeon.py:107-199, 392-523, 624-797] -/
inductive Err where
  /-- `chr` of a negative number, or `max` of nothing: `ValueError` -/
  | value
  /-- a field of `None`: `AttributeError` -/
  | attribute
  /-- `RuntimeError`: a missing tensor, several embeddings, writing to a tensor whose entries share memory -/
  | runtime
  /-- of the approximation -/
  | approximation
deriving DecidableEq

/-- An embedding matrix: the number of rows, and the rows.  [scripts/tokensurgeon.py:445-450] -/
structure Emb (R : Type) where
  rows : Nat
  row : Nat → R

/-- A vocabulary, in order of insertion.  [tokenizer/normalization.py:67-121] -/
abbrev Vocab := List (NToken × Nat)

/-- One assignment of a dictionary comprehension: a known key keeps its place and gets the new value.  [tokenizer/normalization.py:114-121] -/
def upsert (d : Vocab) (e : NToken × Nat) : Vocab :=
  if e.1 ∈ d.map Prod.fst then d.map (fun x => if x.1 = e.1 then e else x) else d ++ [e]

/-- `normalized_vocabulary`, tokenizer/normalization.py:67-121, as a dictionary (the word start prefix is a parameter). -/
def normalizedDict (special : List (Str × List Str)) (wordStart : Str) (vocab : List (Str × Nat)) : Vocab :=
  (vocab.map (fun e => (normalize special wordStart e.1, e.2))).foldl upsert []

/-! ## Matching -/

/-- The value of a hexadecimal digit.  [scripts/tokensurgeon.py:184] -/
def hexVal (c : Char) : Option Nat :=
  if '0' ≤ c ∧ c ≤ '9' then some (c.toNat - 48)
  else if 'A' ≤ c ∧ c ≤ 'F' then some (c.toNat - 55)
  else if 'a' ≤ c ∧ c ≤ 'f' then some (c.toNat - 87)
  else none

/-- `int(ab, 16)` for two characters: digits, a sign, or a blank at either end.  (Digits and blanks outside ASCII are not modelled.) -/
def parse2 (a b : Char) : Option Int :=
  match hexVal a, hexVal b with
  | some x, some y => some (16 * x + y)
  | some x, none => if b.isWhitespace then some x else none
  | none, some y => if a = '-' then some (-(y : Int)) else if a = '+' ∨ a.isWhitespace then some y else none
  | none, none => none

/-- `f"<0x{n:02X}>"` for `n < 256`. -/
def byteToken (n : Nat) : Str := cs!"<0x" ++ [Nat.digitChar (n / 16), Nat.digitChar (n % 16)].map Char.toUpper ++ cs!">"

/-- `match_byte_token`, tokensurgeon.py:171-190. -/
def matchByte (v : Vocab) (t : NToken) : Except Err (Option Nat) :=
  match t with
  | (none, [c]) => if c.toNat < 256 then .ok (get v (none, byteToken c.toNat)) else .ok none
  | (none, ['<', '0', 'x', a, b, '>']) =>
    match parse2 a b with
    | none => .ok none
    | some (.ofNat n) => .ok (get v (none, [Char.ofNat n]))
    | some (.negSucc _) => .error .value
  | _ => .ok none

/-- `match_prefix`, tokensurgeon.py:193-199; `ws` are the characters `strip` removes. -/
def matchPrefix (ws : Char → Bool) (v : Vocab) (t : NToken) : Option Nat := (tokenPrefixes ws false t).findSome? (get v)

/-- The row of the original model that a token takes over, tokensurgeon.py:455-473. -/
def matchToken (ws : Char → Bool) (allowByte allowPrefix : Bool) (v : Vocab) (t : NToken) : Except Err (Option Nat) :=
  match get v t with
  | some i => .ok (some i)
  | none =>
    match (if allowByte then matchByte v t else .ok none) with
    | .error e => .error e
    | .ok (some i) => .ok (some i)
    | .ok none => if allowPrefix then .ok (matchPrefix ws v t) else .ok none

/-! ## The matrix -/

section
variable {R : Type}

/-- `res[i] = r`.  [scripts/tokensurgeon.py:457, 514, 518] -/
def setRow (res : Nat → R) (i : Nat) (r : R) : Nat → R := fun j => if j = i then r else res j

/-- `safe_orig_vocab`, `safe_donor_vocab`, tokensurgeon.py:409-412. -/
def safe (v : Vocab) (rows : Nat) : Vocab := v.filter (fun e => decide (e.2 < rows))

/-- `out_vocab_size`, tokensurgeon.py:406. -/
def outSize (donor : Vocab) : Except Err Nat :=
  match donor with
  | [] => .error .value
  | e :: es => .ok (max donor.length ((es.map Prod.snd).foldl max e.2 + 1))

/-- The loop tokensurgeon.py:451-473: matched rows are copied, other tokens collected. -/
def copyRows (ws : Char → Bool) (allowByte allowPrefix : Bool) (orig : Emb R) (v : Vocab) (donorRows : Nat) :
    Vocab → (Nat → R) → List NToken → Except Err ((Nat → R) × List NToken)
  | [], res, new => .ok (res, new)
  | (t, id) :: es, res, new =>
    if donorRows ≤ id then copyRows ws allowByte allowPrefix orig v donorRows es res new
    else
      match matchToken ws allowByte allowPrefix v t with
      | .error e => .error e
      | .ok (some i) => copyRows ws allowByte allowPrefix orig v donorRows es (setRow res id (orig.row i)) new
      | .ok none => copyRows ws allowByte allowPrefix orig v donorRows es res (new ++ [t])

/-- The approximation and what is done to its result: whether it is one row shown several times (`mean`), the noise added (by number of the batch and
position) and the scaling, if any.  [scripts/tokensurgeon.py:256-389, 507-510] -/
structure Approx (R : Type) where
  compute : List NToken → Except Err (List R)
  shared : Bool
  noise : Option (Nat → Nat → R)
  scale : Option (R → R)

/-- Noise and scaling, tokensurgeon.py:507-510.  Both write to the tensor, which fails if its rows share memory. -/
def finish [Add R] (a : Approx R) (batch : Nat) (es : List R) : Except Err (List R) :=
  if a.shared ∧ 1 < es.length ∧ (a.noise.isSome ∨ a.scale.isSome) then .error .runtime
  else
    let es := match a.noise with
      | none => es
      | some n => es.zipIdx.map (fun e => e.1 + n batch e.2)
    .ok (match a.scale with
      | none => es
      | some s => es.map s)

/-- Rows for a batch, tokensurgeon.py:496-510. -/
def approximate [Add R] (a : Approx R) (batch : Nat) (ts : List NToken) : Except Err (List R) := (a.compute ts).bind (finish a batch)

/-- `for ne_idx, token in enumerate(...): res[donor_vocab[token]] = new_embeds[ne_idx]`, tokensurgeon.py:511-514. -/
def placeRows (donor : Vocab) : List (NToken × R) → (Nat → R) → (Nat → R)
  | [], res => res
  | (t, r) :: es, res =>
    match get donor t with
    | some id => placeRows donor es (setRow res id r)
    | none => placeRows donor es res

/-- The loop over the batches, tokensurgeon.py:492-514, on what is left of the new tokens (at most `fuel` batches). -/
def fillRows [Add R] (a : Approx R) (donor : Vocab) (size : Nat) : Nat → Nat → List NToken → (Nat → R) → Except Err (Nat → R)
  | 0, _, _, res => .ok res
  | fuel + 1, batch, ts, res =>
    match ts with
    | [] => .ok res
    | t :: ts =>
      match approximate a batch ((t :: ts).take size) with
      | .error e => .error e
      | .ok rs => fillRows a donor size fuel (batch + 1) ((t :: ts).drop size) (placeRows donor (((t :: ts).take size).zip rs) res)

/-- `batch_size`, tokensurgeon.py:489-491: missing, zero and negative mean one batch. -/
def batchSize (given : Option Int) (n : Nat) : Nat :=
  match given with
  | some (.ofNat (k + 1)) => k + 1
  | _ => n

/-- The junk tokens with the ids of donor tokens without a row, tokensurgeon.py:429-431. -/
def allJunk (junk : List Nat) (donor : Vocab) (donorRows : Nat) : List Nat :=
  junk ++ (donor.map Prod.snd).filter (fun i => decide (donorRows ≤ i))

/-- `build_embedding_matrix`, tokensurgeon.py:392-523 (the donor's rows only matter to the approximation). -/
def build [Zero R] [Add R] (ws : Char → Bool) (allowByte allowPrefix : Bool) (a : Approx R) (batch : Option Int) (orig : Emb R) (donorRows : Nat)
    (origVocab donor : Vocab) (junk : List Nat) : Except Err (Emb R) :=
  match outSize donor with
  | .error e => .error e
  | .ok n =>
    match copyRows ws allowByte allowPrefix orig (safe origVocab orig.rows) donorRows donor (fun _ => 0) [] with
    | .error e => .error e
    | .ok (res, new) =>
      match fillRows a donor (batchSize batch new.length) new.length 0 new res with
      | .error e => .error e
      | .ok res => .ok { rows := n, row := (allJunk junk donor donorRows).foldl (fun res i => setRow res i 0) res }

/-! ## The command -/

/-- `AllowMatch`, tokensurgeon.py:526-530. -/
inductive AllowMatch where
  | lmHeadOnly | embedOnly | yes | no
deriving DecidableEq

/-- What is allowed for the input embedding, tokensurgeon.py:720-721. -/
def allowedForEmbed (m : AllowMatch) : Bool := m = .yes || m = .lmHeadOnly

/-- What is allowed for the output embedding, tokensurgeon.py:744-745. -/
def allowedForHead (m : AllowMatch) : Bool := m = .yes || m = .embedOnly

/-- A weight of an architecture.  [architecture/base.py:14-35] -/
structure Wi where
  name : Str
  optional : Bool
  isEmbed : Bool
  aliases : List Str
  tied : List Str
deriving DecidableEq

/-- One loop of `get_embedding_info`, tokensurgeon.py:117-128. -/
def theEmbedding (ws : List Wi) : Except Err (Option Wi) :=
  match ws.filter (·.isEmbed) with
  | [] => .ok none
  | [w] => .ok (some w)
  | _ => .error .runtime

/-- `loader.get_tensor(name, aliases=..., raise_on_missing=False)`, io/lazy_tensor_loader.py, as the first name that is there. -/
def getTensor (store : Str → Option (Emb R)) (names : List Str) : Option (Emb R) := names.findSome? store

/-- `get_stuff` for one of the embeddings, tokensurgeon.py:139-168. -/
def getEmbedding (store : Str → Option (Emb R)) (w : Option Wi) (tied : Bool) : Except Err (Option (Emb R)) :=
  match w with
  | none => .error .attribute
  | some w =>
    match getTensor store (w.name :: w.aliases ++ if tied then w.tied else []) with
    | some t => .ok (some t)
    | none => if w.optional then .ok none else .error .runtime

/-- One of the two new matrices, tokensurgeon.py:708-754: none if the model has none, an error if only the donor has none. -/
def newMatrix (f : Emb R → Emb R → Except Err (Emb R)) (orig donor : Option (Emb R)) : Except Err (Option (Emb R)) :=
  match orig, donor with
  | none, _ => .ok none
  | some _, none => .error .runtime
  | some o, some d => (f o d).map some

/-- One round of the loop tokensurgeon.py:772-787: the tensor written for a weight, if any. -/
def writeOne (embed head : Wi) (newEmbed newHead : Option (Emb R)) (store : Str → Option (Emb R)) (w : Wi) : Except Err (List (Str × Emb R)) :=
  match (if w.name = embed.name then newEmbed else if w.name = head.name then newHead else getTensor store (w.name :: w.aliases)) with
  | some t => .ok [(w.name, t)]
  | none => if w.optional then .ok [] else .error .runtime

/-- The loop.  [scripts/tokensurgeon.py:772-787] -/
def writeAll (embed head : Wi) (newEmbed newHead : Option (Emb R)) (store : Str → Option (Emb R)) : List Wi → Except Err (List (Str × Emb R))
  | [] => .ok []
  | w :: ws => (writeOne embed head newEmbed newHead store w).bind (fun a => (writeAll embed head newEmbed newHead store ws).map (fun r => a ++ r))

/-- The weights of a model with one module.  [architecture/base.py:50-83] -/
structure Arch where
  pre : List Wi
  layers : List Wi
  post : List Wi

/-- What the user gives.  [scripts/tokensurgeon.py:643-657] -/
structure Options (R : Type) where
  prefixMatch : AllowMatch
  byteMatch : AllowMatch
  batch : Option Int
  /-- the approximation for the input and for the output embedding -/
  embedApprox : Emb R → Emb R → Approx R
  headApprox : Emb R → Emb R → Approx R

/-- `main`, tokensurgeon.py:624-797, from the loaded architectures and vocabularies to the tensors written (junk tokens as computed by `--magikarp`). -/
def run [Zero R] [Add R] (ws : Char → Bool) (o : Options R) (arch donorArch : Arch) (store donorStore : Str → Option (Emb R))
    (origVocab donor : Vocab) (junk : List Nat) : Except Err (List (Str × Emb R)) :=
  (theEmbedding arch.pre).bind fun embed => (theEmbedding arch.post).bind fun head =>
  (getEmbedding store embed false).bind fun origEmbed => (getEmbedding store head false).bind fun origHead =>
  (theEmbedding donorArch.pre).bind fun dEmbed => (theEmbedding donorArch.post).bind fun dHead =>
  (getEmbedding donorStore dEmbed true).bind fun donorEmbed => (getEmbedding donorStore dHead true).bind fun donorHead =>
  (newMatrix (fun x y => build ws (allowedForEmbed o.byteMatch) (allowedForEmbed o.prefixMatch) (o.embedApprox x y) o.batch x y.rows origVocab donor junk)
    origEmbed donorEmbed).bind fun newEmbed =>
  (newMatrix (fun x y => build ws (allowedForHead o.byteMatch) (allowedForHead o.prefixMatch) (o.headApprox x y) o.batch x y.rows origVocab donor junk)
    origHead donorHead).bind fun newHead =>
  match embed, head with
  | some e, some h => writeAll e h newEmbed newHead store (arch.pre ++ arch.layers ++ arch.post)
  | _, _ => .error .attribute

end

end Verif.Surgeon
