import Verif.Model.Plan

/-! # What a plan should contain (specification for C27 - C32) -/

namespace Verif.Plan

open Verif.ModelRef (Str Ref)
open Verif.Config
open Verif.LoadTask (WeightInfo)

section
variable {K : Type} [Field K] [LinearOrder K] [FloorRing K]

/-- `out` is the right thing to plan for output weight `w`, given for each source the model and the weight to take from it, and
the reader to take parameters from: nothing if `w` is optional and stored in no input, and otherwise a merge of exactly
these inputs with parameters read for the right tensor names and models. -/
inductive TensorPlan (env : Env K) (r : Reader K) (w : WeightInfo) (ins : List (Ref × WeightInfo)) :
    Option (Planned K) → Prop
  | skipped (hopt : w.optional = true) (habs : ∀ m wi, (m, wi) ∈ ins → wi.name ∉ env.indexNames m) :
      TensorPlan env r w ins none
  | planned (p : Planned K) (hw : p.weight = w)
      (hopt : w.optional = true → ∃ m wi, (m, wi) ∈ ins ∧ wi.name ∈ env.indexNames m)
      (hin : p.inputs = dictOf ins)
      (hparams : List.Forall₂ (fun (d : ParamDef K) e => e.1 = d.name ∧
        (r.forTensor w.name).parameter d.name none d.default d.required = .ok e.2) env.params p.params)
      (htensor : ∃ tp, p.tensorParams = dictOf tp ∧ List.Forall₂ (fun (i : Ref × WeightInfo) e => e.1 = i.1 ∧
        List.Forall₂ (fun (d : ParamDef K) e' => e'.1 = d.name ∧
          (r.forTensor i.2.name).parameter d.name (some i.1) d.default
            (d.required && !decide (some i.1 = r.baseModel)) = .ok e'.2) env.tensorParams e.2) ins tp)
      (hbase : p.baseModel = r.baseModel) : TensorPlan env r w ins (some p)

/-- Number of layers of a slice, going by its first source. -/
def OutSlice.len (s : OutSlice K) : Nat :=
  match s.sources with
  | [] => 0
  | src :: _ => (src.stop - src.start).toNat

/-- The output layers in order: slice and offset within it. -/
def layout (slices : List (OutSlice K)) : List (OutSlice K × Nat) :=
  slices.flatMap (fun s => (List.range (OutSlice.len s)).map (fun o => (s, o)))

/-- The reader for a slice at a given depth. -/
def sliceReader (c : MergeConfig K) (d : OutModule K) (s : OutSlice K) (t : K) : Reader K :=
  { config := c, t := t, sliceOut := some s, module := some d }

end

end Verif.Plan
