import Verif.Model.Main
import Verif.Model.Scripts

/-! # `mergekit-legacy` and `mergekit-layershuffle` as a whole (`/repo/mergekit/scripts/legacy.py`, `layershuffle.py`)

Joins the command line (`Model/CommandLine.lean`), the making of the configuration (`Model/Scripts.lean`) and its validation (`Model/Document.lean`) to what a merge needs.  Both
commands call the constructors of `MergeConfiguration` and its parts, which validate the same way as a document is validated; so the configuration is written here as a document.
What is printed and written with `--print-yaml` and `--write-yaml` is the configuration as a document. -/

namespace Verif.Main

open Verif.ModelRef (Str Ref)
open Verif.Document (Doc)
open Verif.WholeMerge (getMethod)

/-- How the commands can end before anything is merged: the command line, a number that is none (`click`'s `float`, whose message is one about the command line), the script itself,
the configuration, a name that no method has.  [scripts/legacy.py:62-126; scripts/layershuffle.py:53-128] -/
inductive ScriptErr where
  | usage (e : CommandLine.Err)
  | badNumber
  | script (e : Scripts.Err)
  | config (e : Document.Err)
  | noMethod

/-- The values of an option with `multiple=True`.  [scripts/legacy.py:16-35; scripts/layershuffle.py:23-32] -/
def wordsOf (k : CommandLine.Call) (name : Str) : List Str :=
  match k.own.lookup name with
  | some (some (.words l)) => l
  | _ => []

/-- The value of an option.  [scripts/legacy.py:36-41] -/
def wordOf (k : CommandLine.Call) (name : Str) : Option Str :=
  match k.own.lookup name with
  | some (some (.word s)) => some s
  | _ => none

/-- A flag with its default.  [scripts/legacy.py:42-66; scripts/layershuffle.py:33-51] -/
def flagOf (k : CommandLine.Call) (name : Str) (default : Bool) : Bool :=
  match k.own.lookup name with
  | some (some (.flag b)) => b
  | _ => default

/-- `type=float, multiple=True`: all words are numbers.  [scripts/legacy.py:20-35; scripts/layershuffle.py:24-32] -/
def floats (float : Str → Option ℝ) : List Str → Option (List ℝ)
  | [] => some []
  | s :: l =>
    match float s with
    | none => none
    | some x => match floats float l with
      | none => none
      | some xs => some (x :: xs)

/-- An entry of a dictionary that is there only if there is a value.  [scripts/legacy.py:89-109] -/
def ifGiven (key : Str) : Option ℝ → List (Str × Doc ℝ)
  | none => []
  | some x => [(key, .float x)]

/-- `InputModelDefinition(model=model, parameters={})` with the parameters set afterwards, legacy.py:82-104. -/
def entryDoc (e : Scripts.Entry ℝ) : Doc ℝ :=
  .dict [(cs!"model", .str e.model), (cs!"parameters", .dict (ifGiven cs!"density" e.density ++ ifGiven cs!"weight" e.weight))]

/-- An optional text.  [scripts/legacy.py:111-117; scripts/layershuffle.py:108-110] -/
def orNull : Option Str → Doc ℝ
  | none => .null
  | some s => .str s

/-- The arguments of `MergeConfiguration(...)`, legacy.py:86-117. -/
def legacyDoc (method : Str) (c : Scripts.Legacy ℝ) (mask naive normalize bf16 : Bool) : Doc ℝ :=
  .dict [(cs!"merge_method", .str method), (cs!"models", .list (c.models.map entryDoc)),
    (cs!"parameters", .dict (ifGiven cs!"t" c.t ++ (if mask then [(cs!"int8_mask", .bool true)] else []) ++
      (if naive then [(cs!"consensus_method", .str cs!"count")] else []) ++ [(cs!"normalize", .bool normalize)])),
    (cs!"base_model", orNull c.base), (cs!"dtype", orNull (if bf16 then some cs!"bfloat16" else none))]

/-- What validation and the table of methods make of a configuration, config.py:123-143, plan.py:58.  (No source text is handed to `run_merge`.) -/
noncomputable def prepare (W : World) (k : CommandLine.Call) (d : Doc ℝ) : Except ScriptErr Prepared :=
  match Document.read W.lib d with
  | .error e => .error (.config e)
  | .ok c =>
    match getMethod W.chance c.mergeMethod with
    | none => .error .noMethod
    | some m => .ok { options := k.merge, out := argument k cs!"out_path", text := [], conf := c, method := m }

/-- The call and the arguments of `MergeConfiguration(...)`, scripts/legacy.py:68-117.  (The models are validated before the parameters are assigned, and the rest after; here all are validated at the
end, which makes a difference only to which of several errors is reported.) -/
noncomputable def legacyArguments (float : Str → Option ℝ) (line : List Str) : Except ScriptErr (CommandLine.Call × Doc ℝ) :=
  match CommandLine.call CommandLine.legacy line with
  | .error e => .error (.usage e)
  | .ok k =>
    match floats float (wordsOf k cs!"density"), floats float (wordsOf k cs!"weight") with
    | some density, some weight =>
      match Scripts.legacy (wordsOf k cs!"merge") (wordOf k cs!"base_model") density weight (decide ((wordOf k cs!"method").getD cs!"ties" = cs!"slerp")) with
      | .error e => .error (.script e)
      | .ok c =>
        .ok (k, legacyDoc ((wordOf k cs!"method").getD cs!"ties") c (flagOf k cs!"int8_mask" false) (flagOf k cs!"naive_count" false)
          (flagOf k cs!"normalize" true) (flagOf k cs!"bf16" false))
    | _, _ => .error .badNumber

/-- `main`, scripts/legacy.py:68-126, up to the beginning of the merge. -/
noncomputable def legacyMain (W : World) (float : Str → Option ℝ) (line : List Str) : Except ScriptErr Prepared :=
  match legacyArguments float line with
  | .error e => .error e
  | .ok r => prepare W r.1 r.2

/-- `merge_config.model_dump(exclude_none=True, mode="json")`, legacy.py:120, layershuffle.py:113, if the configuration is valid. -/
def configuration (W : World) (d : Doc ℝ) : Option (Doc ℝ) :=
  match Document.read W.lib d with
  | .error _ => none
  | .ok c => some (Document.dump true c)

/-- What `mergekit-legacy` prints, legacy.py:119-120: before the method is looked up. -/
noncomputable def legacyPrints (W : World) (float : Str → Option ℝ) (line : List Str) : Option (Doc ℝ) :=
  match legacyArguments float line with
  | .error _ => none
  | .ok r => if flagOf r.1 cs!"print_yaml" false then configuration W r.2 else none

/-! ## Shuffles -/

/-- What a shuffle depends on besides: the number of layers of the models, and the random choices (see `Model/Scripts.lean`).  [scripts/layershuffle.py:64-107] -/
structure Dice where
  layers : Ref → Nat
  random : Nat → ℝ
  draw : Nat → Nat → Nat
  mix : List (Scripts.Slice Ref) → List (Scripts.Slice Ref)

/-- `[ModelReference.parse(m) for m in model]`, layershuffle.py:64. -/
def parseAll : List Str → Option (List Ref)
  | [] => some []
  | s :: l =>
    match ModelRef.parse s with
    | .error _ => none
    | .ok r => match parseAll l with
      | none => none
      | some rs => some (r :: rs)

/-- `OutputSliceDefinition(sources=[InputSliceDefinition(model=str(model), layer_range=(a, b))])`, layershuffle.py:79-86, 99-106. -/
def sliceDoc (s : Scripts.Slice Ref) : Doc ℝ :=
  .dict [(cs!"sources", .list [.dict [(cs!"model", .str s.model.print), (cs!"layer_range", .list [.int s.start, .int s.stop])]])]

/-- The arguments of `MergeConfiguration(...)`, layershuffle.py:108-110. -/
def shuffleDoc (slices : List (Scripts.Slice Ref)) (fp16 : Bool) : Doc ℝ :=
  .dict [(cs!"merge_method", .str cs!"passthrough"), (cs!"slices", .list (slices.map sliceDoc)), (cs!"dtype", orNull (if fp16 then some cs!"float16" else none))]

/-- The call and the arguments of `MergeConfiguration(...)`, scripts/layershuffle.py:53-110. -/
noncomputable def shuffleArguments (D : Dice) (float : Str → Option ℝ) (line : List Str) : Except ScriptErr (CommandLine.Call × Doc ℝ) :=
  match CommandLine.call CommandLine.layershuffle line with
  | .error e => .error (.usage e)
  | .ok k =>
    match floats float (wordsOf k cs!"weight") with
    | none => .error .badNumber
    | some weight =>
      match parseAll (wordsOf k cs!"model") with
      | none => .error (.config .runtime)
      | some models =>
        match (if flagOf k cs!"full_random" false then Scripts.fullRandom models D.layers weight D.draw D.mix else Scripts.shuffle models D.layers weight D.random) with
        | .error e => .error (.script e)
        | .ok slices => .ok (k, shuffleDoc slices (flagOf k cs!"fp16" false))

/-- `main`, scripts/layershuffle.py:53-128, up to the beginning of the merge; nothing is merged in a dry run. -/
noncomputable def shuffleMain (W : World) (D : Dice) (float : Str → Option ℝ) (line : List Str) : Except ScriptErr (Option Prepared) :=
  match shuffleArguments D float line with
  | .error e => .error e
  | .ok r =>
    match prepare W r.1 r.2 with
    | .error e => .error e
    | .ok p => .ok (if flagOf r.1 cs!"dry_run" false then none else some p)

/-- What `mergekit-layershuffle` prints, layershuffle.py:112-116. -/
noncomputable def shufflePrints (W : World) (D : Dice) (float : Str → Option ℝ) (line : List Str) : Option (Doc ℝ) :=
  match shuffleArguments D float line with
  | .error _ => none
  | .ok r => if flagOf r.1 cs!"print_yaml" false then configuration W r.2 else none

/-- The file `mergekit-layershuffle` writes with the configuration, layershuffle.py:112-119: a name that is empty counts as none.  (That it can be written is `click`'s to check.) -/
noncomputable def shuffleWrites (W : World) (D : Dice) (float : Str → Option ℝ) (line : List Str) : Option (Str × Doc ℝ) :=
  match shuffleArguments D float line with
  | .error _ => none
  | .ok r =>
    match wordOf r.1 cs!"write_yaml" with
    | none => none
    | some f => if f = [] then none else (configuration W r.2).map (fun d => (f, d))

end Verif.Main
