import Verif.Model.ModelRef

/-! # Architecture definitions (`/repo/mergekit/architecture/base.py`, `json_definitions.py`, `moe_defs.py`) -/

namespace Verif.Arch

open Verif.ModelRef (Str)

/-- What may go wrong in `string.Template.substitute`: `KeyError` for an unknown name, `ValueError` for a lone "$".  [architecture/json_definitions.py:115-136] -/
inductive Err where
  | key (name : Str)
  | value
deriving DecidableEq

/-- The pieces the regular expression of `TemplateWithArithmetic` (json_definitions.py:111-112) finds in a template. -/
inductive Piece where
  | lit (c : Char)
  | var (name : Str)
  | invalid
deriving DecidableEq

/-- `[_a-z]`, ASCII, any case (json_definitions.py:112; `string.Template` matches with `IGNORECASE`). -/
def isIdStart (c : Char) : Bool := c == '_' || ('a' ≤ c && c ≤ 'z') || ('A' ≤ c && c ≤ 'Z')

/-- `[_a-z0-9]`, json_definitions.py:112. -/
def isIdChar (c : Char) : Bool := isIdStart c || ('0' ≤ c && c ≤ '9')

/-- The optional `[+-]1` at the front, json_definitions.py:112: the match and the rest. -/
def splitStep : Str → Str × Str
  | '+' :: '1' :: s => (['+', '1'], s)
  | '-' :: '1' :: s => (['-', '1'], s)
  | s => ([], s)

/-- The longest identifier of json_definitions.py:112 at the front of the text, if any, and the rest.  (Within braces the match has to end at
the brace; since neither kind of suffix contains a brace, the longest match is the only one that can.) -/
def splitId : Str → Option (Str × Str)
  | [] => none
  | c :: s =>
    if isIdStart c then
      let a := s.takeWhile isIdChar
      let r := splitStep (s.dropWhile isIdChar)
      some (c :: a ++ r.1, r.2)
    else none

/-- What follows a "$": one piece and the rest of the text (the alternatives `escaped`, `named`, `braced`, `invalid` of `string.Template`).  [architecture/json_definitions.py:111-136] -/
def afterDollar : Str → Piece × Str
  | '$' :: s => (.lit '$', s)
  | '{' :: s =>
    match splitId s with
    | some (v, '}' :: r) => (.var v, r)
    | _ => (.invalid, '{' :: s)
  | s =>
    match splitId s with
    | some (v, r) => (.var v, r)
    | none => (.invalid, s)

/-- Successive matches of the pattern; the number bounds the steps (each step consumes a character, so the length of the text is enough).  [architecture/json_definitions.py:115-136] -/
def pieces : Nat → Str → List Piece
  | 0, _ => []
  | _ + 1, [] => []
  | k + 1, '$' :: s => (afterDollar s).1 :: pieces k (afterDollar s).2
  | k + 1, c :: s => .lit c :: pieces k s

/-- `str` of an integer.  [architecture/json_definitions.py:115-136] -/
def dec : Int → Str
  | .ofNat n => Nat.toDigits 10 n
  | .negSucc n => '-' :: Nat.toDigits 10 (n + 1)

/-- The dictionary `substitutions`, json_definitions.py:121-134. -/
def lookup (numLayers : Int) (layer : Option Int) (v : Str) : Option Int :=
  if v = "num_layers".toList then some numLayers
  else if v = "num_layers+1".toList then some (numLayers + 1)
  else if v = "num_layers-1".toList then some (numLayers - 1)
  else match layer with
    | none => none
    | some i =>
      if v = "layer_index".toList then some i
      else if v = "layer_index+1".toList then some (i + 1)
      else if v = "layer_index-1".toList then some (i - 1)
      else none

/-- What replaces a piece (`Template.substitute`).  [architecture/json_definitions.py:115-136] -/
def renderPiece (numLayers : Int) (layer : Option Int) : Piece → Except Err Str
  | .lit c => .ok [c]
  | .var v => match lookup numLayers layer v with
    | some n => .ok (dec n)
    | none => .error (.key v)
  | .invalid => .error .value

/-- The replacements put together.  [architecture/json_definitions.py:115-136] -/
def render (numLayers : Int) (layer : Option Int) : List Piece → Except Err Str
  | [] => .ok []
  | p :: ps =>
    match renderPiece numLayers layer p with
    | .error e => .error e
    | .ok a => match render numLayers layer ps with
      | .error e => .error e
      | .ok b => .ok (a ++ b)

/-- `_template_substitution`, json_definitions.py:115-136. -/
def expand (template : Str) (numLayers : Int) (layer : Option Int) : Except Err Str :=
  if '{' ∈ template then render numLayers layer (pieces template.length template) else .ok template

/-- `WeightInfo`, base.py:30-35. -/
structure WeightInfo where
  name : Str
  isEmbed : Bool := false
  optional : Bool := false
  aliases : Option (List Str) := none
  forceDtype : Option Str := none
  tiedNames : Option (List Str) := none
deriving DecidableEq

/-- Substitution in the entries of a list, json_definitions.py:55-63. -/
def expandList (numLayers : Int) (layer : Option Int) : List Str → Except Err (List Str)
  | [] => .ok []
  | t :: ts =>
    match expand t numLayers layer with
    | .error e => .error e
    | .ok a => match expandList numLayers layer ts with
      | .error e => .error e
      | .ok b => .ok (a :: b)

/-- `None` stays.  [architecture/json_definitions.py:41-64] -/
def expandOpt (numLayers : Int) (layer : Option Int) : Option (List Str) → Except Err (Option (List Str))
  | none => .ok none
  | some l => (expandList numLayers layer l).map some

/-- `_substitute`, json_definitions.py:41-64. (`force_dtype` is a string and would be substituted, too; it never holds a placeholder and is
kept as it is here.) -/
def substitute (w : WeightInfo) (numLayers : Int) (layer : Option Int) : Except Err WeightInfo :=
  match expand w.name numLayers layer with
  | .error e => .error e
  | .ok n => match expandOpt numLayers layer w.aliases with
    | .error e => .error e
    | .ok a => match expandOpt numLayers layer w.tiedNames with
      | .error e => .error e
      | .ok t => .ok { w with name := n, aliases := a, tiedNames := t }

/-- A list of weights substituted.  [architecture/json_definitions.py:69-85] -/
def substituteAll (numLayers : Int) (layer : Option Int) : List WeightInfo → Except Err (List WeightInfo)
  | [] => .ok []
  | w :: ws =>
    match substitute w numLayers layer with
    | .error e => .error e
    | .ok a => match substituteAll numLayers layer ws with
      | .error e => .error e
      | .ok b => .ok (a :: b)

/-- `JsonModuleArchDef`, json_definitions.py:27-34, and the rest of `JsonModuleDefinition`, 96-99.  (The names of configuration entries are left
out: the number of layers a configuration gives is an argument below.) -/
structure Module where
  pre : List WeightInfo
  layers : List WeightInfo
  post : List WeightInfo
  overrideNumLayers : Option Nat := none
  weightPrefix : Option Str := none

/-- `num_layers`, json_definitions.py:90-93; `configured` is what the configuration says. -/
def Module.numLayers (m : Module) (configured : Nat) : Nat := m.overrideNumLayers.getD configured

/-- `range(num_layers)` with `layer_weights` of each, base.py:80-81, json_definitions.py:74-80. -/
def layersFrom (m : Module) (n : Nat) : List Nat → Except Err (List WeightInfo)
  | [] => .ok []
  | i :: is =>
    match substituteAll n (some i) m.layers with
    | .error e => .error e
    | .ok a => match layersFrom m n is with
      | .error e => .error e
      | .ok b => .ok (a ++ b)

/-- `ModuleArchitecture.all_weights`, base.py:76-83. -/
def Module.allWeights (m : Module) (configured : Nat) : Except Err (List WeightInfo) :=
  let n := m.numLayers configured
  match substituteAll n none m.pre with
  | .error e => .error e
  | .ok a => match layersFrom m n (List.range n) with
    | .error e => .error e
    | .ok b => match substituteAll n none m.post with
      | .error e => .error e
      | .ok c => .ok (a ++ b ++ c)

/-- `tuple(prefix + x for x in l or ()) or None`, base.py:43-45. -/
def prefixOpt (p : Str) (l : Option (List Str)) : Option (List Str) :=
  match (l.getD []).map (fun x => p ++ x) with
  | [] => none
  | x :: xs => some (x :: xs)

/-- `_prefix_weight`, base.py:38-47. -/
def prefixWeight (w : WeightInfo) : Option Str → WeightInfo
  | none => w
  | some p => { w with name := p ++ w.name, aliases := prefixOpt p w.aliases, tiedNames := prefixOpt p w.tiedNames }

/-- `ModelArchitecture.all_weights`, base.py:134-139, for modules each with its configured number of layers. -/
def allWeights : List (Module × Nat) → Except Err (List WeightInfo)
  | [] => .ok []
  | (m, n) :: ms =>
    match m.allWeights n with
    | .error e => .error e
    | .ok a => match allWeights ms with
      | .error e => .error e
      | .ok b => .ok (a.map (fun w => prefixWeight w m.weightPrefix) ++ b)

/-! ## Architectures defined in python -/

/-- `AfmoeModuleArchitecture.layer_weights`, moe_defs.py:39-52, after the weights of the partial definition. -/
def afmoeExperts (numExperts index : Nat) : List WeightInfo :=
  (List.range numExperts).flatMap (fun e =>
    ["up_proj".toList, "gate_proj".toList, "down_proj".toList].map (fun param =>
      { name := "model.layers.".toList ++ Nat.toDigits 10 index ++ ".mlp.experts.".toList ++ Nat.toDigits 10 e ++ '.' :: param ++ ".weight".toList
        optional := true }))

/-- moe_defs.py:42-52. -/
def afmoeLayer (m : Module) (n numExperts index : Nat) : Except Err (List WeightInfo) :=
  match substituteAll n (some index) m.layers with
  | .error e => .error e
  | .ok a => .ok (a ++ afmoeExperts numExperts index)

/-- `".mlp." in name`.  [architecture/moe_defs.py:19-107] -/
def hasMlp (name : Str) : Bool := name.tails.any (fun t => ".mlp.".toList.isPrefixOf t)

/-- `Glm4MoeModuleArchitecture.layer_weights`, moe_defs.py:79-107. -/
def glm4Layer (m : Module) (n firstDense index : Nat) : Except Err (List WeightInfo) :=
  match substituteAll n (some index) m.layers with
  | .error e => .error e
  | .ok a =>
    if index < firstDense then .ok a
    else
      let p := "model.layers.".toList ++ Nat.toDigits 10 index
      .ok ([".mlp.experts.gate_up_proj", ".mlp.experts.down_proj", ".mlp.gate.weight", ".mlp.gate.e_score_correction_bias",
            ".mlp.shared_experts.gate_proj.weight", ".mlp.shared_experts.up_proj.weight", ".mlp.shared_experts.down_proj.weight"].map
          (fun s => { name := p ++ s.toList : WeightInfo }) ++ a.filter (fun w => !hasMlp w.name))

/-- The weights of some layers one after the other, base.py:80-81. -/
def collectLayers (layer : Nat → Except Err (List WeightInfo)) : List Nat → Except Err (List WeightInfo)
  | [] => .ok []
  | i :: is =>
    match layer i with
    | .error e => .error e
    | .ok a => match collectLayers layer is with
      | .error e => .error e
      | .ok b => .ok (a ++ b)

/-- `all_weights`, base.py:76-83, of a python-defined architecture: weights before and after the layers are those of a JSON definition
(moe_defs.py:30-34, 70-74), `layer` is its `layer_weights`. -/
def pythonWeights (m : Module) (layer : Nat → Except Err (List WeightInfo)) (n : Nat) : Except Err (List WeightInfo) :=
  match substituteAll n none m.pre with
  | .error e => .error e
  | .ok a => match collectLayers layer (List.range n) with
    | .error e => .error e
    | .ok b => match substituteAll n none m.post with
      | .error e => .error e
      | .ok c => .ok (a ++ b ++ c)

end Verif.Arch
