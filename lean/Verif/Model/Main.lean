import Verif.Model.CommandLine
import Verif.Model.Document
import Verif.Model.Registry
import Verif.Model.Shipped

/-! # `mergekit-yaml` as a whole (`/repo/mergekit/scripts/run_yaml.py`, `/repo/mergekit/merge.py:31-75`)

Joins the command line (`Model/CommandLine.lean`), the document (`Model/Document.lean`) and the table of methods (`Model/Registry.lean`) to what a merge needs
(`Model/Shipped.lean`, `Model/WholeMerge.lean`). -/

namespace Verif.Main

open Verif.ModelRef (Str Ref)
open Verif.WholeMerge (Chance Method MethodErr Setup getMethod)

/-- What surrounds a run: files, the YAML library, the conversions of the validation library, the random choices, the architecture with the layers and the names in the
models (`get_architecture_info`, `_model_out_config`, the loaders; see `Model/ArchKnown.lean`, `Model/Output.lean`), data types and loaders.
[scripts/run_yaml.py:22-37; merge.py:31-75; plan.py:37-88] -/
structure World where
  file : Str → Option Str
  yaml : Str → Option (Document.Doc ℝ)
  lib : Document.Lib ℝ
  chance : Chance
  family : Document.Conf ℝ → Option (Shipped.Family ℝ)
  casts : LoadTask.Casts (Tensor.Tensor ℝ)
  loaders : Ref → LoadTask.Loader (Tensor.Tensor ℝ)

/-- How the command can end before anything is merged.  [scripts/run_yaml.py:13-37; plan.py:58] -/
inductive Err where
  | usage (e : CommandLine.Err)
  | noFile
  | syntax
  | config (e : Document.Err)
  | noMethod

/-- What the merge is run with: the options, where to write, the configuration with its text, and the method.  [scripts/run_yaml.py:31-37] -/
structure Prepared where
  options : List (Str × Option CommandLine.FieldVal)
  out : Str
  text : Str
  conf : Document.Conf ℝ
  method : Method

/-- An argument by its name.  [scripts/run_yaml.py:17-21] -/
def argument (k : CommandLine.Call) (name : Str) : Str := (k.args.lookup name).getD []

/-- `main`, scripts/run_yaml.py:17-37, up to the beginning of the merge, with `merge_methods.get(...)` of plan.py:58. -/
noncomputable def yamlMain (W : World) (line : List Str) : Except Err Prepared :=
  match CommandLine.call CommandLine.yaml line with
  | .error e => .error (.usage e)
  | .ok k =>
    match W.file (argument k cs!"config_file") with
    | none => .error .noFile
    | some text =>
      match W.yaml text with
      | none => .error .syntax
      | some d =>
        match Document.read W.lib d with
        | .error e => .error (.config e)
        | .ok c =>
          match getMethod W.chance c.mergeMethod with
          | none => .error .noMethod
          | some m => .ok { options := k.merge, out := argument k cs!"out_path", text, conf := c, method := m }

/-- The planner's architecture together with the parameters of the method, plan.py:58, 76-88, 166-203. -/
def Prepared.family (p : Prepared) (f : Shipped.Family ℝ) : Shipped.Family ℝ := { f with params := p.method.params, tensorParams := p.method.tensorParams }

/-- The run that `run_merge` makes, merge.py:31-90, with the data types of the configuration (plan.py:204-236, 344-363). -/
def Prepared.setup (p : Prepared) (W : World) : Setup ℝ (Tensor.Tensor ℝ) MethodErr where
  casts := W.casts
  loaders := W.loaders
  dtype := p.conf.dtype.map String.ofList
  outDtype := p.conf.outDtype.map String.ofList
  method := p.method.task

end Verif.Main
