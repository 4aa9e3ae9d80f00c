import Mathlib.Logic.Function.Basic
import Mathlib.Tactic.Common

/-! # Task interning (`/repo/mergekit/graph.py:126-199`) -/

set_option linter.dupNamespace false

namespace Verif.Universe

/-- Tasks as values: immutable pydantic models compared by value (graph.py:23-43, `frozen=True`), whose `arguments()`
(graph.py:45-57) are tasks built strictly earlier, hence of smaller rank. -/
structure TaskSystem (T : Type) where
  args : T → List (String × T)
  rank : T → Nat
  rank_lt : ∀ t, ∀ a ∈ args t, rank a.2 < rank t

/-- `TaskUniverse`, graph.py:140-143.  `task_to_index` is represented by the position in `tasks` (each task occurs
once); the `(type, id)` cache `_type_id_to_index` (graph.py:167-173) only shortcuts the same
lookup because registered objects are immutable and kept alive by `tasks`. -/
structure Universe (T : Type) where
  tasks : List T
  /-- `task_arguments` -/
  argTable : Nat → Option (List (String × Nat))

/-- `TaskUniverse()`, graph.py:145-149. -/
def Universe.empty {T : Type} : Universe T := ⟨[], fun _ => none⟩

variable {T : Type} [DecidableEq T]

mutual
/-- `TaskUniverse.add_task(task, recursive)`, graph.py:154-185; returns the new universe and the
index of the handle. -/
def addTask (S : TaskSystem T) (u : Universe T) (t : T) (recursive : Bool) : Universe T × Nat :=
  if t ∈ u.tasks then (u, u.tasks.idxOf t)
  else
    let index := u.tasks.length
    let u1 : Universe T := { u with tasks := u.tasks ++ [t] }
    if recursive then
      let u2 : Universe T := { u1 with argTable := Function.update u1.argTable index (some []) }
      (addArgs S t (S.args t) (fun _ h => h) index u2, index)
    else (u1, index)
termination_by (S.rank t, (S.args t).length + 1)

/-- The loop `for k, v in task.arguments().items()`, graph.py:183-184. -/
def addArgs (S : TaskSystem T) (t : T) (l : List (String × T)) (hl : ∀ a ∈ l, a ∈ S.args t)
    (index : Nat) (u : Universe T) : Universe T :=
  match l with
  | [] => u
  | (k, v) :: rest =>
    let r := addTask S u v true
    let old := (r.1.argTable index).getD []
    let u' : Universe T :=
      { r.1 with argTable := Function.update r.1.argTable index (some (old ++ [(k, r.2)])) }
    addArgs S t rest (fun a h => hl a (List.mem_cons_of_mem _ h)) index u'
termination_by (S.rank t, l.length)
decreasing_by
  · exact Prod.Lex.left _ _ (S.rank_lt t (k, v) (hl _ List.mem_cons_self))
  · exact Prod.Lex.right _ (by simp)
end

/-- `TaskUniverse.get_handle`, graph.py:187-199. -/
def getHandle (u : Universe T) (t : T) : Option Nat :=
  if t ∈ u.tasks then some (u.tasks.idxOf t) else none

/-- A history of `add_task` calls; returns the final universe and the issued handles, in order.  [graph.py:145-185] -/
def addAll (S : TaskSystem T) (u : Universe T) : List (T × Bool) → Universe T × List Nat
  | [] => (u, [])
  | (t, r) :: rest =>
    let x := addTask S u t r
    let y := addAll S x.1 rest
    (y.1, x.2 :: y.2)

end Verif.Universe
