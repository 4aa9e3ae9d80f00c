import Verif.Model.Config
import Verif.Model.Chars
import Verif.Model.Resume

/-! # Model cards (`/repo/mergekit/card.py`, `merge.py:99-114`) -/

namespace Verif.Card

open Verif.ModelRef (Str Ref)
open Verif.Config (MergeConfig)

/-- How writing a card may fail: `path[0]` of an empty path (card.py:69), or a request to the hub that fails for another reason than the form of
the name (card.py:74). -/
inductive CardError where
  | emptyPath
  | unreachable
deriving DecidableEq

/-- What `huggingface_hub.repo_exists` may do, card.py:73-76. -/
inductive Answer where
  | is (b : Bool)
  | badName
  | failed

/-- What a card depends on besides the configuration: which paths exist locally (card.py:71), what the hub answers (card.py:74), how YAML writes a
text as an item of a list (card.py:177-179), and for a registered method its name, its pretty name and its reference (card.py:101-109). -/
structure World where
  exists_ : Str → Bool
  hub : Str → Answer
  dumped : Str → Str
  methods : Str → Option (Str × Option Str × Option Str)

/-- A text of several lines, as the templates of card.py:15-59 are, and `"\n".join(...)`, card.py:180. -/
def joinLines : List Str → Str
  | [] => []
  | [l] => l
  | l :: ls => l ++ '\n' :: joinLines ls

/-- `is_hf`, card.py:62-76. -/
def isHf (w : World) (path : Str) : Except CardError Bool :=
  match path with
  | [] => .error .emptyPath
  | c :: _ =>
    if c = '/' ∨ c = '~' ∨ path.count '/' > 1 then .ok false
    else if !w.exists_ path then .ok true
    else match w.hub path with
      | .is b => .ok b
      | .badName => .ok false
      | .failed => .error .unreachable

/-- `extract_hf_paths` as a list, card.py:79-91. -/
def hfPaths (w : World) : List Ref → Except CardError (List Str)
  | [] => .ok []
  | m :: ms =>
    match isHf w m.model.path with
    | .error e => .error e
    | .ok b =>
      match m.lora with
      | none =>
        match hfPaths w ms with
        | .error e => .error e
        | .ok ps => .ok ((if b then [m.model.path] else []) ++ ps)
      | some l =>
        match isHf w l.path with
        | .error e => .error e
        | .ok b' =>
          match hfPaths w ms with
          | .error e => .error e
          | .ok ps => .ok ((if b then [m.model.path] else []) ++ (if b' then [l.path] else []) ++ ps)

/-- `str.strip() != ""`, card.py:107, for the blanks of ASCII. -/
def notBlank (s : Str) : Bool := s.any (fun c => !(c = ' ' || c = '\n' || c = '\t' || c = '\r'))

/-- `method.pretty_name() or method.name()`, card.py:106. -/
def prettyOr (name : Str) : Option Str → Str
  | some (c :: cs) => c :: cs
  | _ => name

/-- `method_md`, card.py:94-109. -/
def methodMd (w : World) (method : Str) : Str :=
  match w.methods method with
  | none => method
  | some (name, pretty, url) =>
    match url with
    | some u => if notBlank u then cs!"[" ++ prettyOr name pretty ++ cs!"](" ++ u ++ cs!")" else prettyOr name pretty
    | none => prettyOr name pretty

/-- `maybe_link_hf`, card.py:112-121. -/
def maybeLink (w : World) (path : Str) : Except CardError Str :=
  match isHf w path with
  | .error e => .error e
  | .ok true => .ok (cs!"[" ++ path ++ cs!"](https://huggingface.co/" ++ path ++ cs!")")
  | .ok false => .ok path

/-- `modelref_md`, card.py:124-137. -/
def modelMd (w : World) (m : Ref) : Except CardError Str :=
  match maybeLink w m.model.path with
  | .error e => .error e
  | .ok t =>
    match m.lora with
    | none => .ok t
    | some l =>
      match maybeLink w l.path with
      | .error e => .error e
      | .ok t' => .ok (t ++ cs!" + " ++ t')

/-- The bullets, card.py:168-174. -/
def bullets (w : World) (base : Option Ref) : List Ref → Except CardError (List Str)
  | [] => .ok []
  | m :: ms =>
    if some m = base then bullets w base ms
    else match modelMd w m with
      | .error e => .error e
      | .ok t => match bullets w base ms with
        | .error e => .error e
        | .ok ts => .ok ((cs!"* " ++ t) :: ts)

/-- `yaml.dump({"base_model": ..., "tags": ..., "library_name": ...})`, card.py:177-179, by lines: keys in alphabetical order, a list in block
style unless it is empty, and a line break at the end. -/
def metadata (w : World) (bases tags : List Str) (library : Str) : List Str :=
  (match bases with
    | [] => [cs!"base_model: []"]
    | _ => cs!"base_model:" :: bases.map (fun p => cs!"- " ++ w.dumped p)) ++
  [cs!"library_name: " ++ library] ++ cs!"tags:" :: tags.map (fun p => cs!"- " ++ p) ++ [[]]

/-- `actual_base`, card.py:159-162. -/
def actualBase (method : Str) (base : Option Ref) : Option Ref := if method = cs!"slerp" then none else base

/-- The template `CARD_TEMPLATE` filled in, card.py:15-39, 176-185. -/
def fill (meta' : List Str) (name method baseText : Str) (models : List Str) (yaml : Str) : Str :=
  joinLines [cs!"---", joinLines meta', cs!"---", cs!"# " ++ name, [],
    cs!"This is a merge of pre-trained language models created using [mergekit](https://github.com/cg123/mergekit).", [],
    cs!"## Merge Details", cs!"### Merge Method", [],
    cs!"This model was merged using the " ++ method ++ cs!" merge method" ++ baseText ++ cs!".", [],
    cs!"### Models Merged", [], cs!"The following models were included in the merge:", joinLines models, [],
    cs!"### Configuration", [], cs!"The following YAML configuration was used to produce this model:", [],
    cs!"```yaml", yaml, cs!"```", []]

/-- `generate_card`, card.py:140-185.  `refs` is `config.referenced_models()`: the models of the configuration in the order of a set. -/
def generateCard {K : Type} (w : World) (c : MergeConfig K) (method : Str) (refs : List Ref) (yaml name : Str) : Except CardError Str :=
  let name := if name = [] then cs!"Untitled Model (1)" else name
  match hfPaths w refs with
  | .error e => .error e
  | .ok bases =>
    let base := actualBase method c.baseModel
    let baseText : Except CardError Str := match base with
      | none => .ok []
      | some b => match modelMd w b with
        | .error e => .error e
        | .ok t => .ok (cs!" using " ++ t ++ cs!" as a base")
    match baseText with
    | .error e => .error e
    | .ok baseText =>
      match bullets w base refs with
      | .error e => .error e
      | .ok models =>
        .ok (fill (metadata w bases [cs!"mergekit", cs!"merge"] cs!"transformers") name (methodMd w method) baseText models yaml)

/-- What `run_merge` writes as README.md and as mergekit_config.yml, merge.py:99-114; `own` is `merge_config.to_yaml()`. -/
def cardFiles {K : Type} (w : World) (c : MergeConfig K) (method : Str) (refs : List Ref) (source : Option Str) (own out : Str) :
    Except CardError (Str × Str) :=
  let source := match source with
    | some (x :: xs) => x :: xs
    | _ => own
  match generateCard w c method refs source (Resume.basename out) with
  | .error e => .error e
  | .ok t => .ok (t, source)

end Verif.Card
