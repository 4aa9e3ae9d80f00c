import Mathlib.Data.Fintype.Card
import Mathlib.Data.Finset.Basic
import Mathlib.Order.Basic
import Mathlib.Tactic.Common

/-!
# Task graphs, scheduling and execution (`/repo/mergekit/graph.py`)

Tasks of one `TaskUniverse` are represented by their index, an element of `Fin n`
(`TaskHandle._index`, graph.py:202-276; the universe of a handle is fixed, so the check of
graph.py:325-327 is trivially true).  What a task does is an arbitrary function from named
argument values to a value or an exception.
-/

namespace Verif.Graph

/-- The part of a `TaskUniverse` that scheduling looks at: argument handles of each task
(`TaskUniverse.task_arguments`, graph.py:142, and `TaskHandle.arguments`, graph.py:240-250),
`task.group_label() or ""` (graph.py:356) and `task.priority()` (graph.py:70-79). -/
structure TaskGraph (n : Nat) where
  /-- argument name and argument task, in dict order -/
  args : Fin n → List (String × Fin n)
  group : Fin n → String
  prio : Fin n → Int

variable {n : Nat}

/-- `task.arguments().values()` (graph.py:342, 370). -/
def TaskGraph.deps (G : TaskGraph n) (t : Fin n) : List (Fin n) := (G.args t).map Prod.snd

/-- A node of the networkx graph: a task handle, or (`none`) the dummy handle with index `-1`
(graph.py:329). -/
abbrev Node (n : Nat) := Option (Fin n)

/-- Python's `set.pop` removes an arbitrary element.  The order may depend on the whole history,
so the oracle is indexed by the iteration number.  [graph.py:333-344] -/
abbrev PopOracle (n : Nat) := Nat → (s : Finset (Fin n)) → s.Nonempty → {x : Fin n // x ∈ s}

/-- The exploration loop, graph.py:333-344.  `step` is the number of the iteration,
`explored`/`toExplore` the two python sets, `edges` is `edge_tups`. -/
def explore (G : TaskGraph n) (cached : Fin n → Bool) (pop : PopOracle n) (step : Nat)
    (explored toExplore : Finset (Fin n)) (edges : List (Node n × Node n)) :
    List (Node n × Node n) :=
  if h : toExplore.Nonempty then
    let t := (pop step toExplore h).1
    if t ∈ explored then
      explore G cached pop (step + 1) explored (toExplore.erase t) edges
    else if cached t then
      explore G cached pop (step + 1) (insert t explored) (toExplore.erase t) edges
    else
      explore G cached pop (step + 1) (insert t explored)
        (toExplore.erase t ∪ (G.deps t).toFinset)
        (edges ++ (G.deps t).map (fun d => (some d, some t)))
  else edges
termination_by (exploredᶜ.card, toExplore.card)
decreasing_by
  · exact Prod.Lex.right _ (Finset.card_erase_lt_of_mem (pop step toExplore h).2)
  · apply Prod.Lex.left
    apply Finset.card_lt_card
    rw [Finset.ssubset_iff_of_subset]
    · exact ⟨(pop step toExplore h).1, by simpa using ‹_ ∉ explored›, by simp⟩
    · intro x; simp
  · apply Prod.Lex.left
    apply Finset.card_lt_card
    rw [Finset.ssubset_iff_of_subset]
    · exact ⟨(pop step toExplore h).1, by simpa using ‹_ ∉ explored›, by simp⟩
    · intro x; simp

/-- All edges of the graph (graph.py:333-349): the explored ones and one edge from the dummy node to
every target. -/
def edgeTups (G : TaskGraph n) (cached : Fin n → Bool) (pop : PopOracle n)
    (targets : List (Fin n)) : List (Node n × Node n) :=
  explore G cached pop 0 ∅ targets.toFinset [] ++ targets.map (fun t => (none, some t))

/-- Appending to an insertion-ordered set (python `dict` keys).  [graph.py:360] -/
def insertNew {α : Type} [DecidableEq α] (l : List α) (x : α) : List α :=
  if x ∈ l then l else l ++ [x]

/-- Node order of `networkx.DiGraph(edge_tups)` (graph.py:360): insertion order, tail before head. -/
def nodesOf (edges : List (Node n × Node n)) : List (Node n) :=
  edges.foldl (fun l e => insertNew (insertNew l e.1) e.2) []

/-- Edge set of `networkx.DiGraph(edge_tups)` (graph.py:360): parallel edges collapse. -/
def edgesOf (edges : List (Node n × Node n)) : List (Node n × Node n) :=
  edges.foldl insertNew []

/-- `_compare_key`, graph.py:351-358. -/
def compareKey (G : TaskGraph n) : Node n → String × Int
  | none => ("", 0)
  | some t => (G.group t, - G.prio t)

/-- The heap order of `networkx.lexicographical_topological_sort`: compare the key tuples
(strings, then integers), then the position of the node in the graph.  [graph.py:351-365] -/
def heapLt (G : TaskGraph n) (nodes : List (Node n)) (a b : Node n) : Bool :=
  let ka := compareKey G a
  let kb := compareKey G b
  if ka.1 < kb.1 then true
  else if kb.1 < ka.1 then false
  else if ka.2 < kb.2 then true
  else if kb.2 < ka.2 then false
  else nodes.idxOf a < nodes.idxOf b

/-- `heapq.heappop`: a minimal element of the heap for `lt` (the heap is kept as a list).  [graph.py:363] -/
def heapMin {α : Type} (lt : α → α → Bool) : α → List α → α
  | a, [] => a
  | a, b :: l => heapMin lt (if lt b a then b else a) l

/-- Processing the children of an emitted node in `networkx.lexicographical_topological_sort`:
`indegree_map[child] -= 1`, and push the child when it reaches zero.  [graph.py:363] -/
def relax {α : Type} [DecidableEq α] (indeg : α → Nat) (heap : List α) : List α → (α → Nat) × List α
  | [] => (indeg, heap)
  | c :: cs =>
    let indeg' := Function.update indeg c (indeg c - 1)
    relax indeg' (if indeg' c = 0 then heap ++ [c] else heap) cs

/-- Main loop of `networkx.lexicographical_topological_sort` (called at graph.py:363).
`fuel` bounds the number of iterations; it is called with the number of nodes, which
is shown never to be exhausted early (`Proof/Graph.lean`).  Returns the emitted
nodes and the final indegree map. -/
def kahn {α : Type} [DecidableEq α] (lt : α → α → Bool) (succ : α → List α) :
    Nat → (α → Nat) → List α → List α → List α × (α → Nat)
  | 0, indeg, _, acc => (acc, indeg)
  | _ + 1, indeg, [], acc => (acc, indeg)
  | fuel + 1, indeg, a :: l, acc =>
    let m := heapMin lt a l
    let r := relax indeg ((a :: l).erase m) (succ m)
    kahn lt succ fuel r.1 r.2 (acc ++ [m])

/-- `networkx.lexicographical_topological_sort` on the graph with the given nodes and edges: `none` is
`NetworkXUnfeasible("Graph contains a cycle")`, raised when some node keeps a positive indegree.  [graph.py:360-365] -/
def lexTopoSort {α : Type} [DecidableEq α] (lt : α → α → Bool) (nodes : List α)
    (edges : List (α × α)) : Option (List α) :=
  let indeg := fun v => (edges.filter (fun e => e.2 = v)).length
  let succ := fun v => (edges.filter (fun e => e.1 = v)).map Prod.snd
  let r := kahn lt succ nodes.length indeg (nodes.filter (fun v => indeg v = 0)) []
  if nodes.all (fun v => r.2 v = 0) then some r.1 else none

/-- Keep the node unless it is the dummy or cached (graph.py:364). -/
def keepNode (cached : Fin n → Bool) : Node n → Option (Fin n)
  | none => none
  | some t => if cached t then none else some t

/-- The list `schedule` of `build_schedule`, graph.py:321-365 (`none`: the sort reports a cycle). -/
def buildSchedule (G : TaskGraph n) (cached : Fin n → Bool) (pop : PopOracle n)
    (targets : List (Fin n)) : Option (List (Fin n)) :=
  if targets.isEmpty then some []
  else
    let es := edgeTups G cached pop targets
    let nodes := nodesOf es
    (lexTopoSort (heapLt G nodes) nodes (edgesOf es)).map (·.filterMap (keepNode cached))

/-- `if key not in d: d[key] = v` (graph.py:371-374). -/
def setIfAbsent (d : Fin n → Option Nat) (k : Fin n) (v : Nat) : Fin n → Option Nat :=
  if (d k).isSome then d else Function.update d k (some v)

/-- One iteration of the reverse scan, graph.py:370-374. -/
def lastUseStep (G : TaskGraph n) (d : Fin n → Option Nat) (it : Fin n × Nat) : Fin n → Option Nat :=
  setIfAbsent ((G.deps it.1).foldl (fun d x => setIfAbsent d x it.2) d) it.1 it.2

/-- `last_use_index`, graph.py:368-377. -/
def lastUseIndex (G : TaskGraph n) (cached : Fin n → Bool) (schedule : List (Fin n)) :
    Fin n → Option Nat :=
  let d := (schedule.zipIdx.reverse).foldl (lastUseStep G) (fun _ => none)
  fun k => match d k with
    | some i => some i
    | none => if cached k then some (schedule.length + 1) else none

/-- What happens during a run, in order.  [graph.py:442-504] -/
inductive Event (n : Nat) (V : Type) where
  /-- `task.execute(**arguments)` was called (graph.py:484) -/
  | exec (t : Fin n) (arguments : List (String × V))
  /-- a pair was yielded to the caller (graph.py:491-492) -/
  | yielded (t : Fin n) (v : V)
  /-- the set of held values after eviction (graph.py:494-501) -/
  | held (keys : Fin n → Bool)

/-- How a run ends.  [graph.py:442-504] -/
inductive Outcome (n : Nat) (E : Type) where
  | finished
  /-- `execute` of a task raised (graph.py:484) -/
  | raised (t : Fin n) (e : E)
  /-- `values[dep_handle]` failed (graph.py:475) -/
  | missingArgument (t : Fin n) (name : String)
  /-- `last_use_index[key]` failed (graph.py:497) -/
  | missingLastUse
deriving DecidableEq

/-- `{name: values[dep] ...}`, graph.py:473-482; `Except.error name` is the `KeyError`.
Moving tensors between devices (graph.py:478-480, 528-545) is the identity on values. -/
def gatherArgs {V : Type} (values : Fin n → Option V) :
    List (String × Fin n) → Except String (List (String × V))
  | [] => .ok []
  | (name, d) :: rest =>
    match values d with
    | none => .error name
    | some v =>
      match gatherArgs values rest with
      | .ok vs => .ok ((name, v) :: vs)
      | .error e => .error e

/-- Eviction, graph.py:494-501 (`none` if some held key has no last-use index). -/
def evict {V : Type} (last : Fin n → Option Nat) (idx : Nat) (values : Fin n → Option V) :
    Option (Fin n → Option V) :=
  if (List.finRange n).all (fun k => (values k).isNone || (last k).isSome) then
    some (fun k => if (last k).all (fun l => decide (idx ≥ l)) then none else values k)
  else none

/-- The loop of `Executor._run`, graph.py:463-501. -/
def runLoop {V E : Type} (G : TaskGraph n) (exec : Fin n → List (String × V) → Except E V)
    (targets : List (Fin n)) (last : Fin n → Option Nat) :
    Nat → List (Fin n) → (Fin n → Option V) → List (Event n V) × Outcome n E
  | _, [], _ => ([], .finished)
  | idx, t :: rest, values =>
    match gatherArgs values (G.args t) with
    | .error name => ([], .missingArgument t name)
    | .ok arguments =>
      match exec t arguments with
      | .error e => ([.exec t arguments], .raised t e)
      | .ok res =>
        let values' := Function.update values t (some res)
        let ys := if t ∈ targets then [Event.yielded t res] else []
        match evict last idx values' with
        | none => (.exec t arguments :: ys, .missingLastUse)
        | some values'' =>
          let r := runLoop G exec targets last (idx + 1) rest values''
          (.exec t arguments :: ys ++ .held (fun k => (values'' k).isSome) :: r.1, r.2)

/-- `Executor(targets, cached_values=cached)` followed by exhausting `_run` (graph.py:407-504).
`none`: construction failed because the graph has a cycle. -/
def Executor.run {V E : Type} (G : TaskGraph n) (exec : Fin n → List (String × V) → Except E V)
    (pop : PopOracle n) (targets : List (Fin n)) (cached : Fin n → Option V) :
    Option (List (Event n V) × Outcome n E) :=
  let isCached := fun k => (cached k).isSome
  (buildSchedule G isCached pop targets).map fun schedule =>
    runLoop G exec targets (lastUseIndex G isCached schedule) 0 schedule cached

end Verif.Graph
