import Mathlib.Tactic.Common

/-! # Model references, dotted configuration keys and sizes (`/repo/mergekit/common.py:35-258`)

Python strings are represented as lists of characters. -/

namespace Verif.ModelRef

/-- Python strings.  [common.py:61-88] -/
abbrev Str := List Char

/-- `s.split(c)` for a one-character separator.  [common.py:65-76, 193-202] -/
def splitChar (c : Char) : Str → List Str
  | [] => [[]]
  | x :: xs =>
    if x = c then [] :: splitChar c xs
    else match splitChar c xs with
      | [] => [[x]]
      | h :: t => (x :: h) :: t

/-- `ModelPath`, common.py:61-63. -/
structure ModelPath where
  path : Str
  revision : Option Str := none
deriving DecidableEq

/-- `ModelReference`, common.py:91-98. -/
structure Ref where
  model : ModelPath
  lora : Option ModelPath := none
  overrideArchitecture : Option Str := none
deriving DecidableEq

/-- How parsing a model reference may fail.  [common.py:65-76, 193-202] -/
inductive ParseError where
  /-- "Invalid model path - multiple @", common.py:70 -/
  | multipleAt
  /-- "Can't parse", common.py:201 -/
  | multiplePlus
deriving DecidableEq

/-- `ModelPath.validate_string` on a string, common.py:65-76. -/
def parsePath (s : Str) : Except ParseError ModelPath :=
  if s.count '@' > 1 then .error .multipleAt
  else if s.count '@' = 1 then
    match splitChar '@' s with
    | [p, r] => .ok ⟨p, some r⟩
    | _ => .error .multipleAt -- unpacking would fail; cannot happen with one "@"
  else .ok ⟨s, none⟩

/-- `ModelPath.__str__`, common.py:78-81 (an empty revision is falsy). -/
def ModelPath.print (p : ModelPath) : Str :=
  match p.revision with
  | none => p.path
  | some [] => p.path
  | some r => p.path ++ '@' :: r

/-- `ModelReference.parse`, i.e. `validate_string` followed by validation of the fields, common.py:193-202, 217-220. -/
def parse (s : Str) : Except ParseError Ref :=
  match splitChar '+' s with
  | [m] => match parsePath m with
    | .ok m => .ok ⟨m, none, none⟩
    | .error e => .error e
  | [m, l] => match parsePath m with
    | .error e => .error e
    | .ok m => match parsePath l with
      | .error e => .error e
      | .ok l => .ok ⟨m, some l, none⟩
  | _ => .error .multiplePlus

/-- `ModelReference.__str__`, common.py:222-225. -/
def Ref.print (r : Ref) : Str :=
  match r.lora with
  | some l => r.model.print ++ '+' :: l.print
  | none => r.model.print

/-- What `model_serializer` produces: a string, or the fields.  [common.py:204-215] -/
inductive Serialized where
  | str (s : Str)
  | fields (r : Ref)

/-- `serialize`, common.py:204-215.  (`return self` is serialized field by field.) -/
def Ref.serialize (r : Ref) : Serialized :=
  if r.overrideArchitecture.isSome then .fields r
  else if '"' ∈ r.print ∨ ' ' ∈ r.print then .fields r
  else .str r.print

/-- `ModelReference.model_validate`, common.py:193-202. -/
def validate : Serialized → Except ParseError Ref
  | .str s => parse s
  | .fields r => .ok r

/-! ## Dotted configuration keys -/

/-- Configuration objects: attributes or leaf values.  (Objects are trees here: a sub-configuration object shared between
two attributes is not represented; leaves have no attributes.)  [common.py:35-58] -/
inductive Cfg (V : Type) where
  | leaf (v : V)
  | obj (attrs : List (Str × Cfg V))

/-- The attribute list of an object.  [common.py:48-58] -/
def attrGet {V : Type} (attrs : List (Str × Cfg V)) (k : Str) : Option (Cfg V) :=
  (attrs.find? (fun e => decide (e.1 = k))).map Prod.snd

/-- `setattr`.  [common.py:35-45] -/
def attrSet {V : Type} (attrs : List (Str × Cfg V)) (k : Str) (v : Cfg V) : List (Str × Cfg V) :=
  if (attrs.map Prod.fst).contains k then attrs.map (fun e => if e.1 = k then (k, v) else e)
  else attrs ++ [(k, v)]

/-- How reading or writing a configuration value may fail.  [common.py:35-58] -/
inductive CfgError where
  /-- "Config ... has no attribute ...", common.py:41-43, 54-56 -/
  | noAttribute
  /-- `setattr` on something that is not a configuration object -/
  | notObject
deriving DecidableEq

/-- The loop of `get_config_value`, common.py:52-58. -/
def getParts {V : Type} : Cfg V → List Str → Except CfgError (Cfg V)
  | c, [] => .ok c
  | .leaf _, _ :: _ => .error .noAttribute
  | .obj attrs, p :: ps =>
    match attrGet attrs p with
    | none => .error .noAttribute
    | some c => getParts c ps

/-- The loop of `set_config_value`, common.py:39-45; returns the changed object. -/
def setParts {V : Type} (v : Cfg V) : Cfg V → List Str → Except CfgError (Cfg V)
  | c, [] => .ok c -- `split` never returns an empty list
  | .obj attrs, [p] => .ok (.obj (attrSet attrs p v))
  | .leaf _, [_] => .error .notObject
  | .leaf _, _ :: _ :: _ => .error .noAttribute
  | .obj attrs, p :: q :: ps =>
    match attrGet attrs p with
    | none => .error .noAttribute
    | some c =>
      match setParts v c (q :: ps) with
      | .error e => .error e
      | .ok c' => .ok (.obj (attrSet attrs p c'))

/-- `get_config_value`, common.py:48-58. -/
def getConfigValue {V : Type} (c : Cfg V) (key : Str) : Except CfgError (Cfg V) := getParts c (splitChar '.' key)

/-- `set_config_value`, common.py:35-45. -/
def setConfigValue {V : Type} (c : Cfg V) (key : Str) (v : Cfg V) : Except CfgError (Cfg V) :=
  setParts v c (splitChar '.' key)

/-! ## Sizes -/

/-- Value of an ASCII digit.  [common.py:246-258] -/
def digitVal (c : Char) : Nat := c.toNat - '0'.toNat

/-- Digits with single underscores between them, as accepted by python's `int(str)`; the value so far is `acc`. `none` if
malformed.  [common.py:246-258] -/
def intDigits (acc : Nat) : Str → Option Nat
  | [] => some acc
  | '_' :: c :: cs => if c.isDigit then intDigits (acc * 10 + digitVal c) cs else none
  | c :: cs => if c.isDigit then intDigits (acc * 10 + digitVal c) cs else none

/-- Python whitespace (ASCII part).  [common.py:246-258] -/
def isSpace (c : Char) : Bool := c = ' ' || c = '\t' || c = '\n' || c = '\r' || c = '\x0b' || c = '\x0c'

/-- `s.strip()`.  [common.py:246-258] -/
def strip (s : Str) : Str := ((s.dropWhile isSpace).reverse.dropWhile isSpace).reverse

/-- The digits part of `int(s)`: at least one digit, first not an underscore.  [common.py:246-258] -/
def intUnsigned : Str → Option Nat
  | [] => none
  | c :: cs => if c.isDigit then intDigits (digitVal c) cs else none

/-- python's `int(s)` on ASCII strings.  [common.py:246-258] -/
def pyInt (s : Str) : Option Int :=
  match strip s with
  | '-' :: cs => (intUnsigned cs).map (fun n => - (n : Int))
  | '+' :: cs => (intUnsigned cs).map (fun n => (n : Int))
  | cs => (intUnsigned cs).map (fun n => (n : Int))

/-- `parse_kmb` on a string, common.py:246-258.  Strings are ASCII here (`isnumeric` also accepts other scripts and
fractions).  `none` is an exception. -/
def parseKmb (s : Str) : Option Int :=
  if s ≠ [] ∧ s.all Char.isDigit then pyInt s
  else match s.getLast? with
    | none => none -- `value[-1]` of an empty string: IndexError
    | some c =>
      if c.toLower = 'k' then (pyInt s.dropLast).map (· * 1000)
      else if c.toLower = 'm' then (pyInt s.dropLast).map (· * 1000 * 1000)
      else if c.toLower = 'b' then (pyInt s.dropLast).map (· * 1000 * 1000 * 1000)
      else none

end Verif.ModelRef
