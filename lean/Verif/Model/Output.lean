import Verif.Model.Plan
import Verif.Model.Chars
import Verif.Model.Tokenizer

/-!
# The directory of a merged model

`mergekit/merge.py`: the configuration written, the chat template and the files other than weights.
-/

namespace Verif.Output

open Verif.ModelRef (Str Cfg Ref setConfigValue strip attrSet)
open Verif.Config (MergeConfig truthy)
open Verif.Plan (outLayerCount)

/-! ## Configuration -/

/-- Values in a configuration: those written by a merge, and others.  [merge.py:282-361] -/
inductive Val where
  | int (n : Int)
  | str (s : Str)
  | other (n : Nat)
deriving DecidableEq, Repr

/-- The model whose configuration is taken over (`merge.py:288-291`), and from which files are copied (`merge.py:205`): the base model,
otherwise the first of the models referenced, given in the order of the set of them; `none` is an `IndexError`. -/
def donor {K : Type} (c : MergeConfig K) (order : List Ref) : Option Ref :=
  match c.baseModel with
  | some b => some b
  | none => order.head?

/-- `res.torch_dtype = ...` (`merge.py:292-295`); an empty string counts as absent.  The data type of a configuration that is not an object
cannot be set; configurations are objects. -/
def setDtype (outDtype dtype : Option Str) (res : Cfg Val) : Cfg Val :=
  let set (d : Str) : Cfg Val :=
    match res with
    | .obj attrs => .obj (attrSet attrs "torch_dtype".toList (.leaf (.str d)))
    | .leaf v => .leaf v
  match outDtype.filter (· ≠ []), dtype.filter (· ≠ []) with
  | some d, _ => set d
  | none, some d => set d
  | none, none => res

/-- `module_layers` (`merge.py:297-314`): the layer counts of the modules of the architecture that are given by slices; `none` is an
`IndexError` from a slice without sources. -/
def moduleLayers {K : Type} (c : MergeConfig K) : List String → Option (List (String × Int))
  | [] => some []
  | m :: ms =>
    match outLayerCount c m, moduleLayers c ms with
    | _, none => none
    | none, some rest => some rest
    | some none, some _ => none
    | some (some n), some rest => some ((m, n) :: rest)

/-- `set_config_value` with its failure turned into a warning (`merge.py:332-339`, `:353-361`). -/
def trySet (res : Cfg Val) (key : Str) (n : Int) : Cfg Val :=
  match setConfigValue res key (.leaf (.int n)) with
  | .ok res' => res'
  | .error _ => res

/-- The loop over the layer counts (`merge.py:316-339`); `keys` gives `num_layers_config_key()` of a module, `none` if absent or empty.
(Every module in `module_layers` is one of the architecture, lines 318-322 are dead.) -/
def setLayers (keys : String → Option Str) : List (String × Int) → Cfg Val → Cfg Val
  | [], res => res
  | (m, n) :: rest, res =>
    match keys m with
    | none => setLayers keys rest res
    | some k => setLayers keys rest (trySet res k n)

/-- `_model_out_config` (`merge.py:282-341`) applied to the configuration taken over. -/
def outConfig {K : Type} (c : MergeConfig K) (outDtype dtype : Option Str) (modules : List String) (keys : String → Option Str)
    (source : Cfg Val) : Option (Cfg Val) :=
  (moduleLayers c modules).map (fun ls => setLayers keys ls (setDtype outDtype dtype source))

/-- `_update_config_vocab` (`merge.py:344-361`), called if there is a new tokenizer (`merge.py:88-94`); `vocabKey` is
`arch_info.vocab_size_config_key`. -/
def setVocab (vocabKey : Option Str) (tokens : Nat) (pad : Option Nat) (res : Cfg Val) : Cfg Val :=
  trySet res ((vocabKey.filter (· ≠ [])).getD "vocab_size".toList) (Verif.Tok.paddedConfig tokens pad)

/-! ## Chat template -/

/-- The `chat_template` of a model's tokenizer as loaded for `auto` (`merge.py:168-180`): the tokenizer cannot be loaded, has none, has
one, or has several by name. -/
inductive Loaded where
  | fails
  | absent
  | one (t : Str)
  | several (ts : List (Str × Str))
deriving DecidableEq, Repr

/-- The template counted for a model (`merge.py:174-178`).  (A tokenizer with an empty one counts as having none.) -/
def Loaded.template : Loaded → Option Str
  | .fails => none
  | .absent => none
  | .one t => if t = [] then none else some (strip t)
  | .several ts =>
    match ts.find? (fun e => e.1 = "default".toList) with
    | none => none
    | some (_, t) => if t = [] then none else some (strip t)

/-- `max` with `key=itemgetter(1)` keeps the first of the highest (`merge.py:185`, `Counter.most_common(1)`). -/
def better (l : List Str) (best : Option Str) (t : Str) : Option Str :=
  match best with
  | none => some t
  | some b => if l.count b < l.count t then some t else some b

/-- `Counter(l).most_common(1)[0][0]` (`merge.py:185`): among the distinct elements in order of their first appearance, the first with the
highest count. -/
def mostCommon (l : List Str) : Option Str := l.eraseDups.foldl (better l) none

/-- `_set_chat_template` (`merge.py:155-198`): the template set, `none` if the tokenizer keeps its own; `error` is "Invalid chat
template".  `loaded` are the models referenced, in the order of the set of them; `files` the templates that come with mergekit. -/
def chatTemplate (requested : Option Str) (loaded : List Loaded) (files : Str → Option Str) : Except Unit (Option Str) :=
  match requested with
  | none => .ok none
  | some [] => .ok none
  | some (c :: cs) =>
    if c :: cs = "auto".toList then .ok (mostCommon (loaded.filterMap Loaded.template))
    else
      match files (c :: cs) with
      | some t => .ok (some t)
      | none => if (c :: cs).length < 20 ∨ '{' ∉ c :: cs then .error () else .ok (some (c :: cs))

/-! ## Files -/

/-- What a file in the output directory holds: part of the merged checkpoint, the new configuration, the model card, the configuration
of the merge, a tokenizer saved with a chat template (`none`: its own), or a copy of the donor's file of the same name.  [merge.py:30-152] -/
inductive Content where
  | weights
  | config
  | card
  | mergeConfig
  | newTokenizer (template : Option Str)
  | donorTokenizer (template : Option Str)
  | copied
deriving DecidableEq, Repr

/-- Files by name; a tokenizer and a checkpoint, which consist of several files, are under `tokenizer` and `weights` here.  [merge.py:30-152] -/
abbrev Dir := List (Str × Content)

/-- Writing a file.  [merge.py:88-152] -/
def put (d : Dir) (name : Str) (c : Content) : Dir := d.filter (fun e => e.1 ≠ name) ++ [(name, c)]

/-- The options and circumstances of a run: whether a tokenizer is built, whether the donor's local copy is found (and which files it has),
whether its tokenizer can be loaded.  [merge.py:30-152] -/
structure Setup where
  newTokenizer : Bool
  writeCard : Bool
  copyTokenizer : Bool
  /-- `merge_config.chat_template` is given -/
  templateGiven : Bool
  /-- result of `_set_chat_template` -/
  template : Except Unit (Option Str)
  /-- `_get_donor_model`: `none` if it raises -/
  donorFiles : Option (List Str)
  donorTokenizerLoads : Bool
  /-- `arch_info.tagalong_files` -/
  tagalong : List Str

/-- The files copied as a tokenizer (`merge.py:251-262`). -/
def tokenizerFiles : List Str :=
  ["tokenizer_config.json".toList, "special_tokens_map.json".toList, "tokenizer.json".toList, "tokenizer.model".toList,
   "added_tokens.json".toList, "merges.txt".toList, "chat_template.jinja".toList, "generation_config.json".toList,
   "chat_template.json".toList, "video_preprocessor_config.json".toList]

/-- Copying those of the given files the donor has (`merge.py:224-231`, `:251-267`). -/
def copyFiles (has : List Str) (files : List Str) (d : Dir) : Dir :=
  files.foldl (fun d f => if f ∈ has then put d f .copied else d) d

/-- `_copy_tokenizer` (`merge.py:236-279`); `none` if it raises. -/
def copyTokenizer (s : Setup) (d : Dir) : Option Dir :=
  match s.donorFiles with
  | none => none
  | some has =>
    if !s.templateGiven && "tokenizer_config.json".toList ∈ has &&
        ("tokenizer.json".toList ∈ has || "tokenizer.model".toList ∈ has) then
      some (copyFiles has tokenizerFiles d)
    else if s.donorTokenizerLoads then
      match s.template with
      | .error _ => none
      | .ok t => some (put d "tokenizer".toList (.donorTokenizer t))
    else none

/-- The tokenizer part of `run_merge` (`merge.py:116-132`): `false` if it raises. -/
def tokenizerStep (s : Setup) (d : Dir) : Dir × Bool :=
  if s.newTokenizer then
    match s.template with
    | .error _ => (d, false)
    | .ok t => (put d "tokenizer".toList (.newTokenizer t), true)
  else if s.copyTokenizer then
    match copyTokenizer s d with
    | none => (d, true)
    | some d' => (d', true)
  else (d, true)

/-- `run_merge` after the merge itself (`merge.py:96-139`), starting with what it finds in the output directory: the directory and whether it
returns normally.  (No architecture has the attribute `post_fill_parameters` asked for in lines 141-152.) -/
def finish (s : Setup) (d : Dir) : Dir × Bool :=
  let d := put (put d "weights".toList .weights) "config.json".toList .config
  let d := if s.writeCard then put (put d "README.md".toList .card) "mergekit_config.yml".toList .mergeConfig else d
  match tokenizerStep s d with
  | (d, false) => (d, false)
  | (d, true) =>
    match s.donorFiles with
    | none => (d, false)
    | some has => (copyFiles has s.tagalong d, true)

end Verif.Output
