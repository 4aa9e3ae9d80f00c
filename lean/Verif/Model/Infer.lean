import Verif.Model.Arch

/-!
# Choice and inference of architectures

`mergekit/architecture/__init__.py` and `mergekit/architecture/auto.py`.
-/

namespace Verif.Infer

open Verif.ModelRef (Str)
open Verif.Arch (WeightInfo Module)

/-- Errors: no model referenced (`__init__.py:74-75`), several architectures in one model's configuration (`:34-35`), different
architectures (`:82-87`), no tensors (`auto.py:226-227`), `TypeError` from `in None` or iteration over `None` (`auto.py:252-254`). -/
inductive Err where
  | noModels
  | severalArchitectures
  | mixed
  | noModules
  | typeError
deriving DecidableEq, Repr

/-! ## Choice -/

/-- What a model's configuration says (`__init__.py:34-36`, `:58`). -/
structure ModelInfo where
  architectures : List Str
  modelType : Str
deriving DecidableEq, Repr

/-- The definitions known: those written in python (`__init__.py:38-51`; they are made from the configuration, here they are a function
of it), and those loaded from the data files with their names and model type (`json_definitions.py:168-184`). -/
structure Known (A : Type) where
  python : Str → Option (ModelInfo → A)
  json : List (List Str × Str × A)

/-- `NAME_TO_ARCH` (`json_definitions.py:177-181`): the definitions with a given name. -/
def Known.candidates {A : Type} (k : Known A) (name : Str) : List (Str × A) :=
  (k.json.filter (fun d => name ∈ d.1)).map (fun d => d.2)

/-- `arch_info_for_config` (`__init__.py:33-66`).  (Each data file lists a name at most once.) -/
def archFor {A : Type} (k : Known A) (m : ModelInfo) : Except Err (Option A) :=
  match m.architectures with
  | [name] =>
    match k.python name with
    | some f => .ok (some (f m))
    | none =>
      match k.candidates name with
      | [c] => .ok (some c.2)
      | cs => .ok ((cs.find? (fun c => c.1 == m.modelType)).map Prod.snd)
  | _ => .error .severalArchitectures

/-- The list comprehension of `get_architecture_info` (`__init__.py:77-80`). -/
def archsFor {A : Type} (k : Known A) : List ModelInfo → Except Err (List (Option A))
  | [] => .ok []
  | m :: ms =>
    match archFor k m with
    | .error e => .error e
    | .ok a =>
      match archsFor k ms with
      | .error e => .error e
      | .ok as => .ok (a :: as)

/-- `get_architecture_info` (`__init__.py:69-92`); the models are those referenced, in the order in which the set of them is gone
through; `inferred` is the result of inference. -/
def choose {A : Type} [DecidableEq A] (k : Known A) (allowCrimes : Bool) (inferred : Except Err A) (models : List ModelInfo) : Except Err A :=
  match models with
  | [] => .error .noModels
  | m :: ms =>
    match archsFor k (m :: ms) with
    | .error e => .error e
    | .ok archs =>
      if archs.all Option.isSome then
        match archs with
        | some a :: _ =>
          if !allowCrimes && archs.any (fun x => x != some a) then .error .mixed else .ok a
        | _ => inferred
      else inferred

/-! ## Inference -/

/-- `(\d+)\.` at the front: the digits and what follows the dot (`auto.py:32`; `\d` is taken to be the ASCII digits, the
pattern accepts those of other scripts as well). -/
def digitsDot (s : Str) : Option (Str × Str) :=
  match s.takeWhile Char.isDigit, s.dropWhile Char.isDigit with
  | d :: ds, '.' :: rest => some (d :: ds, rest)
  | _, _ => none

/-- `RE_LAYER_INDEX.search` (`auto.py:32`, `:195`): what precedes the first match, its digits and what follows it. -/
def search : Str → Option (Str × Str × Str)
  | [] => none
  | c :: s =>
    if c = '.' then
      match digitsDot s with
      | some (d, r) => some ([], d, r)
      | none => (search s).map (fun x => (c :: x.1, x.2))
    else (search s).map (fun x => (c :: x.1, x.2))

/-- `int` of decimal digits (`auto.py:198`). -/
def number (d : Str) : Nat := Nat.ofDigitChars 10 d 0

/-- `RE_LAYER_INDEX.sub(".${layer_index}.", tensor_name, count=1)` (`auto.py:203`) given the parts of the match. -/
def template (x : Str × Str × Str) : Str := x.1 ++ ('.' :: "${layer_index}".toList) ++ '.' :: x.2.2

/-- What `get_transformers_info` and the checkpoints tell (`auto.py:44-106`, `:165-184`): the names of all tensors, those not to be
saved, the tests "matches a tied pattern" and "is an embedding" (`None` if not available), and for every model which names it has (or
can be converted to, `auto.py:109-124`). -/
structure Facts where
  names : List Str
  ignored : List Str := []
  tied : Option (Str → Bool)
  embed : Option (Str → Bool)
  models : List (Str → Bool)

/-- The layered names of the first loop with the parts of their match (`auto.py:192-204`). -/
def Facts.layered (f : Facts) : List (Str × Str × Str) :=
  (f.names.filter (fun n => n ∉ f.ignored)).filterMap search

/-- `module_prefixes` after the first loop (`auto.py:197`). -/
def Facts.prefixes (f : Facts) : List Str := (f.layered.map (fun x => x.1)).eraseDups

/-- `module_layer_counts[prefix]` (`auto.py:199-201`). -/
def Facts.layers (f : Facts) (p : Str) : Nat :=
  ((f.layered.filter (fun x => x.1 = p)).map (fun x => number x.2.1 + 1)).foldl max 0

/-- `module_templates[prefix]` (`auto.py:202-204`). -/
def Facts.templates (f : Facts) (p : Str) : List Str :=
  ((f.layered.filter (fun x => x.1 = p)).map template).eraseDups

/-- A module found: its prefix, number of layers, layer templates and other weights (`auto.py:186-189`, `:206-222`). -/
structure Found where
  pfx : Str
  layers : Nat
  templates : List Str
  loose : List Str
deriving DecidableEq, Repr

/-- The names without a layer number (`auto.py:216-218`). -/
def Facts.others (f : Facts) : List Str := f.names.filter (fun n => search n = none)

/-- The other weights of a module: each name goes to the first prefix it starts with, and loses it (`auto.py:216-222`); `order` is the
order in which the set of prefixes is gone through. -/
def Facts.loose (f : Facts) (order : List Str) (p : Str) : List Str :=
  ((f.others.filter (fun n => order.find? (fun q => q.isPrefixOf n) = some p)).map (fun n => n.drop p.length)).eraseDups

/-- The modules before the check for an empty one (`auto.py:206-222`): with a single prefix everything belongs to one module without a
prefix, otherwise there is one for every prefix and one without; the sets being given in some order. -/
def Facts.found (f : Facts) (order : List Str) : List Found :=
  match f.prefixes with
  | [p] => [⟨[], f.layers p, f.templates p, f.loose [[]] []⟩]
  | _ => order.map (fun p => ⟨p, f.layers p, f.templates p, f.loose order p⟩)

/-- `auto.py:224-227`: a module without prefix and weights is dropped; there has to be one left. -/
def Facts.modules (f : Facts) (order : List Str) : Except Err (List Found) :=
  match (f.found order).filter (fun m => !(m.pfx.isEmpty && m.loose.isEmpty && m.templates.isEmpty)) with
  | [] => .error .noModules
  | ms => .ok ms

/-- `_target_present_in_all_models` (`auto.py:109-124`). -/
def Facts.everywhere (f : Facts) (name : Str) : Bool := f.models.all (fun m => m name)

/-- `"${layer_index}" in t` and `t.replace("${layer_index}", s)` for a template as made above, which contains the placeholder once (a
tensor name containing it is not considered): the text before and after it (`auto.py:127-156`). -/
def cut : Str → Option (Str × Str)
  | [] => none
  | c :: s =>
    if "${layer_index}".toList.isPrefixOf (c :: s) then some ([], (c :: s).drop 14)
    else (cut s).map (fun x => (c :: x.1, x.2))

/-- `_template_present_in_all_models` (`auto.py:127-156`). -/
def Facts.presentEverywhere (f : Facts) (t : Str) (numLayers : Option Nat) : Bool :=
  match cut t with
  | none => f.everywhere t
  | some (a, b) =>
    match numLayers with
    | none => f.everywhere (a ++ "0".toList ++ b)
    | some n => (List.range n).all (fun i => f.everywhere (a ++ Nat.toDigits 10 i ++ b))

/-- `full_name in embed_names or any(re.search(pat, full_name) for pat in tied_keys)` (`auto.py:252-254`). -/
def Facts.isEmbed (f : Facts) (t : Str) : Except Err Bool :=
  match f.embed with
  | none => .error .typeError
  | some e =>
    if e t then .ok true
    else
      match f.tied with
      | none => .error .typeError
      | some tie => .ok (tie t)

/-- `tied_keys is not None and any(...)` (`auto.py:248-251`). -/
def Facts.isTied (f : Facts) (t : Str) : Bool :=
  match f.tied with
  | none => false
  | some tie => tie t

/-- `_wi` (`auto.py:235-260`; it is only called with an empty prefix). -/
def Facts.weight (f : Facts) (numLayers : Option Nat) (t : Str) : Except Err WeightInfo :=
  match f.isEmbed t with
  | .error e => .error e
  | .ok e => .ok { name := t, optional := !f.presentEverywhere t numLayers || f.isTied t, isEmbed := e }

/-- Lists of weights (`auto.py:269-276`). -/
def Facts.weights (f : Facts) (numLayers : Option Nat) : List Str → Except Err (List WeightInfo)
  | [] => .ok []
  | t :: ts =>
    match f.weight numLayers t with
    | .error e => .error e
    | .ok w =>
      match f.weights numLayers ts with
      | .error e => .error e
      | .ok ws => .ok (w :: ws)

/-- One module's definition (`auto.py:263-281`). -/
def Facts.moduleOf (f : Facts) (m : Found) : Except Err (Str × Module) :=
  match f.weights none m.loose with
  | .error e => .error e
  | .ok pre =>
    match f.weights (some m.layers) m.templates with
    | .error e => .error e
    | .ok ls =>
      .ok (if m.pfx.isEmpty then "default".toList else m.pfx, { pre := pre, layers := ls, post := [], overrideNumLayers := some m.layers })

/-- All modules (`auto.py:262-281`). -/
def Facts.build (f : Facts) : List Found → Except Err (List (Str × Module))
  | [] => .ok []
  | m :: ms =>
    match f.moduleOf m with
    | .error e => .error e
    | .ok a =>
      match f.build ms with
      | .error e => .error e
      | .ok as => .ok (a :: as)

/-- `infer_architecture_info` (`auto.py:159-290`). -/
def Facts.infer (f : Facts) (order : List Str) : Except Err (List (Str × Module)) :=
  match f.modules order with
  | .error e => .error e
  | .ok ms => f.build ms

end Verif.Infer
