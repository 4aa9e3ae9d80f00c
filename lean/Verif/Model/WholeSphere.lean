import Verif.Model.WholeMerge
import Verif.Model.Sphere

/-! # Spherical interpolation as the planner's parameters reach it (`/repo/mergekit/merge_methods/slerp.py`) -/

namespace Verif.WholeMerge

open Verif.ModelRef (Str Ref)
open Verif.Plan (Planned)

noncomputable section

/-- `parameters["t"]` as a number, slerp.py:87: the field `t: float` of the task (24) refuses what is no number.  (Text that reads as a number
is converted by pydantic; it is refused here.) -/
def fractionOf (p : Planned ℝ) : Except MethodErr ℝ :=
  match lookup p.params "t".toList with
  | some (some (.num x)) => .ok x
  | _ => .error .badParameter

/-- `SlerpMerge.make_task(...)` and executing it, slerp.py:33-56, 73-88.  Without a base model the field `base_model: ModelReference` (23)
refuses `None`, even if there is one tensor only.  (Both refusals happen when the task is made, before anything is executed.) -/
def slerpMethod (p : Planned ℝ) (ts : List (Ref × Tensor.Tensor ℝ)) : Except MethodErr (Option (Tensor.Tensor ℝ)) :=
  match p.baseModel with
  | none => .error .badParameter
  | some b =>
    match fractionOf p with
    | .error e => .error e
    | .ok t =>
      match Sphere.slerpTask p.weight.isEmbed b t ts with
      | .error e => .error (.merge e)
      | .ok x => .ok (some x)

end

end Verif.WholeMerge
