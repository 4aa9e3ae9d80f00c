import Mathlib.Tactic.Common

/-! # The restricted unpickler (`/repo/mergekit/io/lazy_unpickle.py:19-103`)

A pickle stream is a program for a small stack machine (python's `pickle.Unpickler`).  Modelled are the opcodes through
which a stream can obtain or call python objects, and enough others to move values about.  Simplifications: marks
are replaced by explicit counts, all constants other than strings are one value, containers other than tuples are not
distinguished from constants, and the subclass that `torch.load` derives from the unpickler (which maps names of storage
types to placeholder objects before asking `find_class`) is not modelled. -/

namespace Verif.Unpickle

/-- `ACCEPTABLE_TYPES`, lazy_unpickle.py:19-40: reference and the object it resolves to. -/
def acceptable : List ((String × String) × String) :=
  [(("torch._utils", "_rebuild_tensor_v2"), "torch._utils._rebuild_tensor_v2"),
   (("collections", "OrderedDict"), "collections.OrderedDict"),
   (("numpy.core.multiarray", "scalar"), "numpy.core.multiarray.scalar"),
   (("numpy", "dtype"), "numpy.core.multiarray.scalar"),
   (("_codecs", "encode"), "codecs.encode")] ++
  ["DoubleStorage", "FloatStorage", "HalfStorage", "LongStorage", "IntStorage", "ShortStorage", "CharStorage",
    "ByteStorage", "BoolStorage", "BFloat16Storage"].map (fun n => (("torch", n), "torch." ++ n))

/-- Values on the unpickler's stack.  [the machine of pickle.Unpickler, of which io/lazy_unpickle.py:92-103 is a subclass] -/
inductive Val where
  | str (s : String)
  | const
  | tuple (l : List Val)
  /-- a python object found by `find_class` -/
  | glob (object : String)
  /-- the result of calling a value -/
  | result (callee : Val) (args : List Val)
  /-- a `DeferredLoad` -/
  | deferred (storageType : Val) (key : String)

/-- Opcodes (python's names).  [the machine of pickle.Unpickler, of which io/lazy_unpickle.py:92-103 is a subclass] -/
inductive Op where
  | string (s : String)
  | const
  /-- TUPLE1-3, TUPLE -/
  | tuple (n : Nat)
  | pop
  | dup
  /-- MEMOIZE / PUT -/
  | put (i : Nat)
  | get (i : Nat)
  /-- GLOBAL -/
  | global (module name : String)
  /-- STACK_GLOBAL -/
  | stackGlobal
  | reduce
  /-- NEWOBJ, OBJ -/
  | newobj
  /-- INST -/
  | inst (module name : String) (n : Nat)
  /-- BUILD -/
  | build
  /-- BINPERSID -/
  | persid

/-- Observable effects.  [io/lazy_unpickle.py:92-111] -/
inductive Event where
  | resolved (module name : String)
  | called (callee : Val)

/-- How unpickling may fail.  [io/lazy_unpickle.py:92-103] -/
inductive Error where
  /-- "Unsupported type", lazy_unpickle.py:96 -/
  | unsupported (module name : String)
  /-- "unexpected PID", lazy_unpickle.py:99-100 -/
  | badPid
  /-- malformed stream -/
  | malformed

/-- `find_class`, lazy_unpickle.py:93-96. -/
def findClass (module name : String) : Except Error String :=
  match acceptable.find? (fun e => decide (e.1 = (module, name))) with
  | some e => .ok e.2
  | none => .error (.unsupported module name)

/-- `persistent_load`, lazy_unpickle.py:98-103.  `get_dtype` (lazy_unpickle.py:190-196) may call the storage type. -/
def persistentLoad (pid : Val) : Except Error (Val × List Event) :=
  match pid with
  | .tuple (.str "storage" :: rest) =>
    match rest with
    | [st, .str key, _, _] => .ok (.deferred st key, [.called st])
    | _ => .error .malformed
  | _ => .error .badPid

/-- The state of the unpickler: stack and memo.  [the machine of pickle.Unpickler, of which io/lazy_unpickle.py:92-103 is a subclass] -/
structure State where
  stack : List Val := []
  memo : List (Nat × Val) := []

/-- Look up a class and push it.  [io/lazy_unpickle.py:93-96] -/
def pushGlobal (s : State) (stack : List Val) (m n : String) : Except Error (State × List Event) :=
  match findClass m n with
  | .ok o => .ok ({ s with stack := .glob o :: stack }, [.resolved m n])
  | .error e => .error e

/-- One opcode.  [the machine of pickle.Unpickler, of which io/lazy_unpickle.py:92-103 is a subclass] -/
def step (s : State) : Op → Except Error (State × List Event)
  | .string x => .ok ({ s with stack := .str x :: s.stack }, [])
  | .const => .ok ({ s with stack := .const :: s.stack }, [])
  | .tuple n =>
    if n ≤ s.stack.length then
      .ok ({ s with stack := .tuple (s.stack.take n).reverse :: s.stack.drop n }, [])
    else .error .malformed
  | .pop => match s.stack with
    | _ :: st => .ok ({ s with stack := st }, [])
    | [] => .error .malformed
  | .dup => match s.stack with
    | v :: st => .ok ({ s with stack := v :: v :: st }, [])
    | [] => .error .malformed
  | .put i => match s.stack with
    | v :: _ => .ok ({ s with memo := (i, v) :: s.memo }, [])
    | [] => .error .malformed
  | .get i => match s.memo.find? (fun e => decide (e.1 = i)) with
    | some e => .ok ({ s with stack := e.2 :: s.stack }, [])
    | none => .error .malformed
  | .global m n => pushGlobal s s.stack m n
  | .stackGlobal => match s.stack with
    | .str n :: .str m :: st => pushGlobal s st m n
    | _ => .error .malformed
  | .reduce => match s.stack with
    | .tuple args :: f :: st => .ok ({ s with stack := .result f args :: st }, [.called f])
    | _ => .error .malformed
  | .newobj => match s.stack with
    | .tuple args :: f :: st => .ok ({ s with stack := .result f args :: st }, [.called f])
    | _ => .error .malformed
  | .inst m n k =>
    if k ≤ s.stack.length then
      match findClass m n with
      | .ok o => .ok ({ s with stack := .result (.glob o) (s.stack.take k).reverse :: s.stack.drop k },
          [.resolved m n, .called (.glob o)])
      | .error e => .error e
    else .error .malformed
  | .build => match s.stack with
    | _ :: i :: st => .ok ({ s with stack := i :: st }, [.called i])
    | _ => .error .malformed
  | .persid => match s.stack with
    | pid :: st => match persistentLoad pid with
      | .ok (v, ev) => .ok ({ s with stack := v :: st }, ev)
      | .error e => .error e
    | [] => .error .malformed

/-- A whole stream: the events that happened and how it ended.  [io/lazy_unpickle.py:106-111] -/
def run (s : State) : List Op → List Event × Except Error State
  | [] => ([], .ok s)
  | op :: ops =>
    match step s op with
    | .error e => ([], .error e)
    | .ok (s', ev) =>
      let r := run s' ops
      (ev ++ r.1, r.2)

end Verif.Unpickle
