import Verif.Model.Graph
import Mathlib.Logic.Relation

/-! # What scheduling and execution are supposed to do

These definitions talk about task graphs only, not about the scheduler. -/

namespace Verif.Graph

variable {n : Nat}

/-- The tasks that have to be computed: uncached targets and, recursively, uncached arguments. -/
inductive Needed (G : TaskGraph n) (cached : Fin n → Bool) (targets : List (Fin n)) : Fin n → Prop
  | target {t} : t ∈ targets → cached t = false → Needed G cached targets t
  | dep {t d} : Needed G cached targets t → d ∈ G.deps t → cached d = false →
      Needed G cached targets d

/-- The dependency relation between tasks that have to be computed. -/
def NeedsDep (G : TaskGraph n) (cached : Fin n → Bool) (targets : List (Fin n)) (d t : Fin n) : Prop :=
  Needed G cached targets t ∧ d ∈ G.deps t

section
variable {V E : Type}

/-- The value of a task: the cached value, or the result of executing it on the values of its
arguments.  This is the specification of what a task graph computes. -/
inductive Eval (G : TaskGraph n) (exec : Fin n → List (String × V) → Except E V)
    (cached : Fin n → Option V) : Fin n → V → Prop
  | cached {t v} : cached t = some v → Eval G exec cached t v
  | exec {t v} (vals : Fin n → V) : cached t = none →
      (∀ d ∈ G.deps t, Eval G exec cached d (vals d)) →
      exec t ((G.args t).map fun a => (a.1, vals a.2)) = .ok v → Eval G exec cached t v

/-- executed tasks of a trace -/
def execs : List (Event n V) → List (Fin n)
  | [] => []
  | .exec t _ :: l => t :: execs l
  | _ :: l => execs l

/-- yielded tasks of a trace -/
def yields : List (Event n V) → List (Fin n × V)
  | [] => []
  | .yielded t v :: l => (t, v) :: yields l
  | _ :: l => yields l

end

end Verif.Graph
