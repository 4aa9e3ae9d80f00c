import Verif.Spec.Graph
import Mathlib.Data.Finset.Basic

/-! # Multi-GPU execution (`/repo/mergekit/multigpu_executor.py`)

The universe is built from the targets only (multigpu_executor.py:88), so every task index is reachable
from the targets; `ordered` is `serial_schedule.tasks` (lines 90-91). -/

namespace Verif.MultiGPU
open Verif.Graph

variable {n : Nat}

/-- `Task.main_thread_only` and `Task.duplicate_per_gpu` (graph.py:103-123). -/
structure Flags (n : Nat) where
  mainOnly : Fin n → Bool
  perGpu : Fin n → Bool

/-- `_find_leading_tasks`, multigpu_executor.py:266-275.  (With no arguments `any` is false, so the test
`args and ...` adds nothing.) -/
def findLeading (G : TaskGraph n) (F : Flags n) (ordered : List (Fin n)) : Finset (Fin n) :=
  ordered.foldl (fun leading t =>
    if !F.mainOnly t then leading
    else if (G.deps t).any (fun d => decide (d ∉ leading)) then leading
    else insert t leading) ∅

/-- `dependants[t]`, multigpu_executor.py:230-235. -/
def dependants (G : TaskGraph n) (t : Fin n) : Finset (Fin n) :=
  Finset.univ.filter (fun u => t ∈ G.deps u)

/-- State of the loop of `_find_trailing_tasks` (lines 237-246). -/
structure TrailState (n : Nat) where
  trailing : Finset (Fin n)
  toExplore : Finset (Fin n)

/-- Initial state, lines 237-238. -/
def trailInit (G : TaskGraph n) (ordered : List (Fin n)) : TrailState n :=
  ⟨∅, (ordered.filter (fun t => dependants G t = ∅)).toFinset⟩

/-- One iteration, lines 240-246: any element may be popped. -/
inductive TrailStep (G : TaskGraph n) (F : Flags n) : TrailState n → TrailState n → Prop
  | skip {s t} : t ∈ s.toExplore → F.mainOnly t = false →
      TrailStep G F s ⟨s.trailing, s.toExplore.erase t⟩
  | blocked {s t} : t ∈ s.toExplore → F.mainOnly t = true → ¬ dependants G t ⊆ s.trailing →
      TrailStep G F s ⟨s.trailing, s.toExplore.erase t⟩
  | add {s t} : t ∈ s.toExplore → F.mainOnly t = true → dependants G t ⊆ s.trailing →
      TrailStep G F s ⟨insert t s.trailing, s.toExplore.erase t ∪ (G.deps t).toFinset⟩

/-- `trailing` is a possible return value of `_find_trailing_tasks` (line 247). -/
def IsTrailing (G : TaskGraph n) (F : Flags n) (ordered : List (Fin n)) (trailing : Finset (Fin n)) : Prop :=
  Relation.ReflTransGen (TrailStep G F) (trailInit G ordered) ⟨trailing, ∅⟩

/-- `parallel_handles`, lines 105-113. -/
def parallelTasks (F : Flags n) (ordered : List (Fin n)) (leading trailing : Finset (Fin n)) :
    List (Fin n) :=
  ordered.filter (fun t => decide (t ∉ trailing) && decide (t ∉ leading) && !F.perGpu t)

/-- Why construction may fail.  [multigpu_executor.py:60-129] -/
inductive ConstructError
  /-- lines 120-123 -/
  | mainThreadTaskInParallel
  /-- lines 124-125 -/
  | perGpuAndMainThread
  /-- `min(range(0))`, line 319 -/
  | noDevice
deriving DecidableEq

/-- Two parallel tasks joined by an edge of the island graph (lines 300-309), in either direction. -/
def Linked (G : TaskGraph n) (parallel : List (Fin n)) (a b : Fin n) : Prop :=
  a ∈ parallel ∧ b ∈ parallel ∧ (a ∈ G.deps b ∨ b ∈ G.deps a)

/-- What `networkx.weakly_connected_components` returns on the island graph (line 310): the classes of the
equivalence generated by the edges, in some order, each enumerated in some order.
(Library function, taken by its specification.) -/
structure IsComponents (G : TaskGraph n) (parallel : List (Fin n)) (islands : List (List (Fin n))) : Prop where
  cover : ∀ t, t ∈ parallel ↔ ∃ isl ∈ islands, t ∈ isl
  nonempty : ∀ isl ∈ islands, isl ≠ []
  nodup : islands.flatten.Nodup
  connected : ∀ isl ∈ islands, ∀ a ∈ isl, ∀ b,
    b ∈ isl ↔ (b ∈ parallel ∧ Relation.EqvGen (Linked G parallel) a b)

/-- First index below `k + 1` of a minimal value (`min(range(num_gpus), key=...)`, lines 319-324). -/
def argMin (load : Nat → Nat) : Nat → Nat
  | 0 => 0
  | k + 1 => let m := argMin load k; if load (k + 1) < load m then k + 1 else m

/-- The assignment loop, lines 312-327; devices are numbers below `numGpus`, a device without entry has
the empty list. -/
def assignIslands (numGpus : Nat) : List (List (Fin n)) → (Nat → List (Fin n)) →
    Except ConstructError (Nat → List (Fin n))
  | [], a => .ok a
  | isl :: rest, a =>
    if numGpus = 0 then .error .noDevice
    else
      let d := argMin (fun i => (a i).length) (numGpus - 1)
      assignIslands numGpus rest (Function.update a d (a d ++ isl))

/-- The attributes of a constructed executor.  [multigpu_executor.py:60-129] -/
structure Plan (n : Nat) where
  leading : List (Fin n)
  trailing : List (Fin n)
  perGpu : List (Fin n)
  parallel : List (Fin n)
  assigned : Nat → List (Fin n)
  numGpus : Nat

/-- `MultiGPUExecutor.__init__`, lines 93-126, given the result of the exploration of trailing tasks and of
the component search.  `per_gpu_tasks` is a python set; it is listed here in schedule order. -/
def construct (G : TaskGraph n) (F : Flags n) (ordered : List (Fin n)) (trailing : Finset (Fin n))
    (islands : List (List (Fin n))) (numGpus : Nat) : Except ConstructError (Plan n) :=
  let leading := findLeading G F ordered
  let parallel := parallelTasks F ordered leading trailing
  let perGpu := ordered.filter F.perGpu
  if parallel.any F.mainOnly then .error .mainThreadTaskInParallel
  else if perGpu.any F.mainOnly then .error .perGpuAndMainThread
  else
    match assignIslands numGpus islands (fun _ => []) with
    | .error e => .error e
    | .ok a => .ok {
        leading := ordered.filter (· ∈ leading)
        trailing := ordered.filter (· ∈ trailing)
        perGpu := perGpu
        parallel := parallel
        assigned := a
        numGpus := numGpus }

/-- An arbitrary interleaving of the messages of several threads.  [multigpu_executor.py:131-205, 329-377] -/
inductive Interleave {α : Type} : List (List α) → List α → Prop
  | done {ls} : (∀ l ∈ ls, l = []) → Interleave ls []
  | step {ls i a rest q} : ls[i]? = some (a :: rest) → Interleave (ls.set i rest) q →
      Interleave ls (a :: q)

section Run
variable {V E : Type}

/-- `self.results[task_handle] = result` for a sequence of results (lines 149, 158, 200). -/
def collect (results : Fin n → Option V) (ys : List (Fin n × V)) : Fin n → Option V :=
  ys.foldl (fun r y => Function.update r y.1 (some y.2)) results

/-- An `Executor` run on `handles`, skipped when there are none (lines 141-149, 169-178, 190-197). -/
def phaseRun (G : TaskGraph n) (exec : Fin n → List (String × V) → Except E V) (pop : PopOracle n)
    (handles : List (Fin n)) (skip : Bool) (cached : Fin n → Option V) :
    Option (List (Event n V) × Outcome n E) :=
  if skip then some ([], .finished) else Executor.run G exec pop handles cached

/-- Leading phase, lines 141-149. -/
def leadingRun (P : Plan n) (G : TaskGraph n) (exec : Fin n → List (String × V) → Except E V)
    (pop : PopOracle n) : Option (List (Event n V) × Outcome n E) :=
  phaseRun G exec pop P.leading P.leading.isEmpty (fun _ => none)

/-- Worker of device `d`, lines 360-367; only devices that received an island have one (line 169). -/
def workerRun (P : Plan n) (G : TaskGraph n) (exec : Fin n → List (String × V) → Except E V)
    (pop : PopOracle n) (snapshot : Fin n → Option V) (d : Nat) :
    Option (List (Event n V) × Outcome n E) :=
  phaseRun G exec pop (P.perGpu ++ P.assigned d) (P.assigned d).isEmpty snapshot

/-- Messages a worker puts on the queue, lines 367-375: results that are neither targets nor arguments of
trailing tasks are replaced by `None`. -/
def workerMessages (P : Plan n) (G : TaskGraph n) (targets : List (Fin n)) (pyNone : V)
    (trace : List (Event n V)) : List (Fin n × V) :=
  (yields trace).map fun y =>
    if y.1 ∈ targets ∨ ∃ u ∈ P.trailing, y.1 ∈ G.deps u then y else (y.1, pyNone)

/-- Trailing phase, lines 190-197. -/
def trailingRun (P : Plan n) (G : TaskGraph n) (exec : Fin n → List (String × V) → Except E V)
    (pop : PopOracle n) (results : Fin n → Option V) : Option (List (Event n V) × Outcome n E) :=
  phaseRun G exec pop P.trailing P.trailing.isEmpty results

/-- The results at the end, lines 197-200. -/
def finalResults (targets : List (Fin n)) (results : Fin n → Option V) (trace : List (Event n V)) :
    Fin n → Option V :=
  collect results ((yields trace).filter (fun y => y.1 ∈ targets))

/-- What is yielded, lines 203-205. -/
def Yielded (targets : List (Fin n)) (final : Fin n → Option V) (t : Fin n) (v : V) : Prop :=
  t ∈ targets ∧ final t = some v

end Run
end Verif.MultiGPU
