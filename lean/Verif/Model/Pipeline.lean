import Verif.Model.Graph
import Verif.Model.Universe

/-! # From tasks to an executed graph (`/repo/mergekit/graph.py:407-504`)

Joins the models of interning (`Model/Universe.lean`) and of scheduling and execution (`Model/Graph.lean`). -/

namespace Verif.Pipeline

open Verif.Graph Verif.Universe

variable {T V E : Type} [DecidableEq T]

/-- The number behind a handle as an index of the tasks of the universe.  [graph.py:220-238] -/
def toFin (n : Nat) (i : Nat) : Option (Fin n) := if h : i < n then some ⟨i, h⟩ else none

/-- The task graph of a universe: `TaskHandle.arguments`, `group_label`, `priority` (graph.py:236-262). -/
def graphOf (u : Universe T) (group : T → String) (prio : T → Int) : TaskGraph u.tasks.length where
  args i := ((u.argTable i.1).getD []).filterMap (fun a => (toFin u.tasks.length a.2).map (fun j => (a.1, j)))
  group i := group (u.tasks[i.1])
  prio i := prio (u.tasks[i.1])

/-- `TaskUniverse(targets)` and then `universe.add_task(t)` for the targets again, graph.py:145-152, 431-432. -/
def universeOf (S : TaskSystem T) (targets : List T) : Universe T × List Nat :=
  addAll S (addAll S Universe.empty (targets.map (fun t => (t, true)))).1 (targets.map (fun t => (t, true)))

/-- `Executor(targets)` for a list of tasks, and exhausting `_run`, graph.py:407-504. -/
def runTasks (S : TaskSystem T) (group : T → String) (prio : T → Int) (exec : T → List (String × V) → Except E V)
    (pop : ∀ n, PopOracle n) (targets : List T) :
    Option (List (Event (universeOf S targets).1.tasks.length V) × Outcome (universeOf S targets).1.tasks.length E) :=
  let y := universeOf S targets
  Executor.run (graphOf y.1 group prio) (fun i as => exec (y.1.tasks[i.1]) as) (pop _)
    (y.2.filterMap (toFin y.1.tasks.length)) (fun _ => none)

end Verif.Pipeline
