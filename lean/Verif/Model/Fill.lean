import Verif.Model.Chars
import Verif.Model.ModelRef
import Verif.Model.Writer

/-! # Completing a submodel (`/repo/mergekit/scripts/fill_missing_params.py`)

A model is the list of its tensor names with their tensors, in the order of the index.  Reading is idealised (each listed tensor can be loaded). -/

namespace Verif.Fill

open Verif.ModelRef (Str)

/-- How a run can fail.  [scripts/fill_missing_params.py:37-180, 227-250] -/
inductive Err where
  /-- the `assert` on the numbers of parameters -/
  | assertion
  /-- `KeyError`: a tensor that is not in the index -/
  | key
deriving DecidableEq

/-- `strip_prefix`, fill_missing_params.py:220-225. -/
def stripPrefix (name p : Str) : Str := if p ≠ [] ∧ (p ++ ['.']).isPrefixOf name then name.drop (p.length + 1) else name

/-- `item.split(".")[0]`, fill_missing_params.py:234. -/
def firstPart (name : Str) : Str := name.takeWhile (· ≠ '.')

/-- `possible_prefixes`, fill_missing_params.py:234: the elements of the set, in the order of their first occurrence. -/
def prefixes (names : List Str) : List Str := ((names.filter (fun n => decide ('.' ∈ n))).map firstPart).eraseDups

/-- `prefix_matches[prefix]`, fill_missing_params.py:239-245. -/
def matches_ (base sub : List Str) (p : Str) : Nat := (sub.filter (fun x => decide (x ∈ base.map (fun n => stripPrefix n p)))).length

/-- `find_prefix`, fill_missing_params.py:227-250.  `order` is the list made from the set of first parts.  (Starting from the empty prefix and
moving on only to a strictly better one is the test of lines 251-252 with `max`, which gives the first of the best.) -/
def findPrefix (order base sub : List Str) : Str :=
  order.foldl (fun b p => if matches_ base sub b < matches_ base sub p then p else b) []

/-- A name with the prefix, fill_missing_params.py:259-260. -/
def withPrefix (p name : Str) : Str := (if p = [] then [] else p ++ ['.']) ++ name

/-- `find_common_ordered_names([base, sub], ["", prefix])`, fill_missing_params.py:252-261. -/
def common (base sub : List Str) (p : Str) : List Str := base.filter (fun n => decide (n ∈ sub.map (withPrefix p)))

/-- The tensor that is written for a name, fill_missing_params.py:159-175 (a difference in size is only logged). -/
def pick {V : Type} (sub : List (Str × V)) (shared : List Str) (p : Str) (e : Str × V) : Except Err (Str × V) :=
  if e.1 ∈ shared then
    match sub.lookup (stripPrefix e.1 p) with
    | some v => .ok (e.1, v)
    | none => .error .key
  else .ok e

/-- The tensors written by `copy_and_fill_missing_params`, in order, fill_missing_params.py:125-178. -/
def fill {V : Type} (order : List Str) (base sub : List (Str × V)) : Except Err (List (Str × V)) :=
  if sub.length < base.length then
    let p := findPrefix order (base.map Prod.fst) (sub.map Prod.fst)
    base.mapM (pick sub (common (base.map Prod.fst) (sub.map Prod.fst) p) p)
  else .error .assertion

/-- `copy_and_fill_missing_params` with the prefixes tried in the order in which the set is gone through, which may be any (`shuffle`);
fill_missing_params.py:125-178, 234-235. -/
def fillAny {V : Type} (shuffle : List Str → List Str) (base sub : List (Str × V)) : Except Err (List (Str × V)) :=
  fill (shuffle (prefixes (base.map Prod.fst))) base sub

/-- The files copied into the output directory first, fill_missing_params.py:107-123: all but those ending in `.safetensors` or `.bin`. -/
def copied {V : Type} (dir : Writer.FS V) : Writer.FS V := fun f =>
  if cs!".safetensors".isSuffixOf f.toList ∨ cs!".bin".isSuffixOf f.toList then none else dir f

end Verif.Fill
