import Verif.Model.ModelRef
import Mathlib.Data.List.Sort

/-! # Checkpoint layout conversion (`/repo/mergekit/architecture/conversion.py`)

The registry of conversions belongs to the transformers library.  Of an entry only what conversion.py uses is modelled (`Transform`). -/

namespace Verif.Convert

open Verif.ModelRef (Str)

/-! ## Natural order of names -/

/-- The parts `re.split(r"([0-9]+)", value)` yields (conversion.py:31-34): the text before the first run of digits, then each run with the text
after it.  (Text consisting of digits of other scripts, for which `isdigit` holds, is not modelled.) -/
def natParts : Str → Str × List (Str × Str)
  | [] => ([], [])
  | c :: s =>
    match natParts s with
    | (h, t) =>
      if c.isDigit then
        match h, t with
        | [], (d, x) :: t => ([], (c :: d, x) :: t)
        | h, t => ([], ([c], h) :: t)
      else (c :: h, t)

/-- `_natural_sort_key`, conversion.py:31-34. -/
def natKey (s : Str) : Str × List (Nat × Str) :=
  ((natParts s).1, (natParts s).2.map (fun p => (Nat.ofDigitChars 10 p.1 0, p.2)))

/-- Comparison of the tails of two keys as python compares tuples: number, text, number, text, ...  [architecture/conversion.py:31-38] -/
def restLe : List (Nat × Str) → List (Nat × Str) → Bool
  | [], _ => true
  | _ :: _, [] => false
  | (n, s) :: t, (n', s') :: t' =>
    if n < n' then true else if n' < n then false
    else if s < s' then true else if s' < s then false
    else restLe t t'

/-- Comparison of two keys.  [architecture/conversion.py:31-38] -/
def natLe (a b : Str) : Bool :=
  if (natKey a).1 < (natKey b).1 then true else if (natKey b).1 < (natKey a).1 then false
  else restLe (natKey a).2 (natKey b).2

/-- `sorted(available, key=_natural_sort_key)`, conversion.py:38; python's sort is stable, and so is this one. -/
def natSorted (keys : List Str) : List Str := keys.insertionSort (fun a b => natLe a b = true)

/-! ## Transforms -/

/-- What conversion.py uses of an entry of the registry: whether it is a `WeightRenaming`, `rename_source_key`, the patterns, and `convert`, as a
function of the tensors given to `add_tensor` before (source key, source pattern, value), in that order. -/
structure Transform (V : Type) where
  isRenaming : Bool
  rename : Str → Str × Option Str
  sourcePatterns : List Str
  targetPatterns : List Str
  run : Str → List (Str × Str × V) → List (Str × V)

/-- `_TransformMatch`, conversion.py:15-28. -/
structure Match (V : Type) where
  sourceKey : Str
  renamedKey : Str
  sourcePattern : Str
  value : V

/-- `_iter_transform_matches`, conversion.py:37-47. -/
def iterMatches {V : Type} (t : Transform V) (available : List (Str × V)) : List (Match V) :=
  (natSorted (available.map Prod.fst)).filterMap (fun k =>
    match (t.rename k).2 with
    | none => none
    | some p => (available.lookup k).map (fun v => { sourceKey := k, renamedKey := (t.rename k).1, sourcePattern := p, value := v }))

/-- `str.partition`: the text before and after the first occurrence.  [architecture/conversion.py:50-57] -/
def cutAt (sep : Str) : Str → Option (Str × Str)
  | [] => if sep.isPrefixOf [] then some ([], []) else none
  | c :: s =>
    if sep.isPrefixOf (c :: s) then some ([], (c :: s).drop sep.length)
    else (cutAt sep s).map (fun p => (c :: p.1, p.2))

/-- `_expanded_target_keys`, conversion.py:50-57. -/
def expandedTargets (renamed : Str) (targets : List Str) : List Str :=
  match targets with
  | [] => [renamed]
  | first :: _ =>
    match cutAt first renamed with
    | none => [renamed]
    | some (pre, post) => targets.map (fun t => pre ++ t ++ post)

/-- A pattern at the front of a text, `*` standing for `([^.]*)` (greedy): the texts of the stars.  [architecture/conversion.py:60-67] -/
def matchHere : Str → Str → Option (List Str)
  | [], _ => some []
  | '*' :: p, s =>
    (List.range ((s.takeWhile (· ≠ '.')).length + 1)).reverse.findSome? (fun k => (matchHere p (s.drop k)).map (fun g => s.take k :: g))
  | _ :: _, [] => none
  | c :: p, d :: s => if c = d then matchHere p s else none

/-- `_wildcard_values`, conversion.py:60-67. -/
def wildcardValues (pattern key : Str) : List Str :=
  if '*' ∈ pattern then (key.tails.findSome? (matchHere pattern)).getD [] else []

/-- `dict.update` with one entry.  [architecture/conversion.py:117-120] -/
def setKey {V : Type} (d : List (Str × V)) (k : Str) (v : V) : List (Str × V) :=
  match d with
  | [] => [(k, v)]
  | (k', v') :: d => if k' = k then (k, v) :: d else (k', v') :: setKey d k v

/-- `dict.update`.  [architecture/conversion.py:117-120] -/
def update {V : Type} (d : List (Str × V)) (e : List (Str × V)) : List (Str × V) := e.foldl (fun d p => setKey d p.1 p.2) d

/-! ## Conversion -/

/-- The tensors a converter is given for a target, conversion.py:95-109. -/
def relevant {V : Type} (t : Transform V) (available : List (Str × V)) (target : Str) : List (Match V) :=
  (iterMatches t available).filter (fun m => decide (target ∈ expandedTargets m.renamedKey t.targetPatterns))

/-- `conversion_layers`, conversion.py:109 (a set; here in the order of the first addition, without repetitions). -/
def layersOf {V : Type} (ms : List (Match V)) : List Str := (ms.map (·.renamedKey)).eraseDups

/-- `transform.convert(layer)`, conversion.py:117. -/
def convertLayer {V : Type} (t : Transform V) (ms : List (Match V)) (layer : Str) : List (Str × V) :=
  t.run layer ((ms.filter (fun m => m.renamedKey = layer)).map (fun m => (m.sourceKey, m.sourcePattern, m.value)))

/-- conversion.py:116-120: a result, or what is available afterwards. -/
def convertLayers {V : Type} (t : Transform V) (ms : List (Match V)) (target : Str) :
    List Str → List (Str × V) → V ⊕ List (Str × V)
  | [], available => .inr available
  | l :: ls, available =>
    match (convertLayer t ms l).lookup target with
    | some v => .inl v
    | none => convertLayers t ms target ls (update available (convertLayer t ms l))

/-- The loop of `convert_checkpoint_tensors`, conversion.py:92-125. -/
def convertLoop {V : Type} (target : Str) : List (Transform V) → List (Str × V) → Option V
  | [], available => available.lookup target
  | t :: ts, available =>
    if t.isRenaming then
      convertLoop target ts (update available ((iterMatches t available).map (fun m => (m.renamedKey, m.value))))
    else
      match convertLayers t (relevant t available target) target (layersOf (relevant t available target)) available with
      | .inl v => some v
      | .inr available => convertLoop target ts available

/-- `convert_checkpoint_tensors`, conversion.py:74-125; `transforms` is the registry's entry for the model type (empty if there is none). -/
def convertTensors {V : Type} (transforms : List (Transform V)) (sources : List (Str × V)) (target : Str) : Option V :=
  if transforms.isEmpty then none else convertLoop target transforms sources

/-! ## The check -/

/-- Same elements.  [architecture/conversion.py:70-71] -/
def sameSet (a b : List (List Str)) : Bool := a.all (· ∈ b) && b.all (· ∈ a)

/-- `_has_complete_wildcard_group`, conversion.py:70-71, for a set given as a list. -/
def completeGroup (ws : List (List Str)) : Bool := sameSet ws [[]] || decide (1 < ws.eraseDups.length)

/-- `target_wildcards[pattern]`, conversion.py:155-157. -/
def groupOf {V : Type} (ms : List (Match V)) (pattern : Str) : List (List Str) :=
  (ms.filter (fun m => m.sourcePattern = pattern)).map (fun m => wildcardValues m.sourcePattern m.sourceKey)

/-- conversion.py:162-183 for one converter: `none` means that the loop goes on. -/
def judge {V : Type} (t : Transform V) (ms : List (Match V)) : Option Bool :=
  match ms with
  | [] => none
  | m :: _ =>
    if t.sourcePatterns.all (fun p => decide (groupOf ms p ≠ [])) then
      match t.sourcePatterns with
      | [] => some false
      | p :: ps =>
        if ps.all (fun q => sameSet (groupOf ms q) (groupOf ms p)) then some (completeGroup (groupOf ms p)) else some false
    else if t.sourcePatterns.length = 1 then some (completeGroup (groupOf ms m.sourcePattern))
    else none

/-- The loop of `can_convert_checkpoint_keys`, conversion.py:144-185; names stand for themselves. -/
def canLoop (target : Str) : List (Transform Str) → List (Str × Str) → Bool
  | [], _ => false
  | t :: ts, available =>
    if t.isRenaming then
      let available := update available ((iterMatches t available).map (fun m => (m.renamedKey, m.renamedKey)))
      if target ∈ available.map Prod.fst then true else canLoop target ts available
    else if target ∈ available.map Prod.fst then true
    else
      match judge t (relevant t available target) with
      | some b => b
      | none => canLoop target ts available

/-- `can_convert_checkpoint_keys`, conversion.py:128-185. -/
def canConvert (transforms : List (Transform Str)) (sources : List Str) (target : Str) : Bool :=
  if target ∈ sources then true
  else if transforms.isEmpty then false
  else canLoop target transforms (sources.map (fun k => (k, k)))

end Verif.Convert
