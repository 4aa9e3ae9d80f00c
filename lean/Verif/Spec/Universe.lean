import Verif.Model.Universe
import Mathlib.Logic.Relation

/-! # What interning is supposed to do -/

namespace Verif.Universe

variable {T : Type} [DecidableEq T]

/-- The arguments recorded for handle `i` are exactly the task's arguments, in order, each referring to the handle
of that very task. -/
def Complete (S : TaskSystem T) (u : Universe T) (i : Nat) : Prop :=
  ∃ t al, u.tasks[i]? = some t ∧ u.argTable i = some al ∧
    List.Forall₂ (fun a b => a.1 = b.1 ∧ u.tasks[b.2]? = some a.2) (S.args t) al

/-- `x` is `t` or an argument of an argument ... of `t`. -/
def SubTask (S : TaskSystem T) : T → T → Prop :=
  Relation.ReflTransGen (fun t x => ∃ k, (k, x) ∈ S.args t)

end Verif.Universe
