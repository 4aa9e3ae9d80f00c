import Verif.Model.MoeBuild
import Verif.Model.ScriptMain

/-! # `mergekit-moe` from the command line (`/repo/mergekit/scripts/moe.py:142-198`, `/repo/mergekit/moe/config.py:12-42`)

Joins the command line (`Model/CommandLine.lean`), the validation of the document and the building of the mixture (`Model/MoeBuild.lean`).  The options that only say how tensors are read
and written (devices, threads, formats, caches) have no effect here. -/

namespace Verif.Document

open Verif.ModelRef (Str Ref)

variable {K : Type}

/-- `Expert.model_validate`, moe/config.py:12-22. -/
def readExpert (L : Lib K) : Doc K → R (Moe.Expert Ref K)
  | .dict d => do
    let m ← req readRef (d.lookup cs!"source_model")
    let p ← opt (readList readStr) (d.lookup cs!"positive_prompts")
    let n ← opt (readList readStr) (d.lookup cs!"negative_prompts")
    let ns ← opt (readFloat L) (d.lookup cs!"noise_scale")
    let rs ← opt (readFloat L) (d.lookup cs!"residual_scale")
    .ok ⟨m, p, n, ns, rs⟩
  | _ => .error .validation

/-- `MoEMergeConfig.model_validate`, moe/config.py:25-42; the data type beside the rest. -/
def readMoe (L : Lib K) : Doc K → R (Moe.Config Ref K × Option Str)
  | .dict d => do
    let b ← req readRef (d.lookup cs!"base_model")
    let es ← req (readList (readExpert L)) (d.lookup cs!"experts")
    let g ← deflt cs!"hidden" readStr (d.lookup cs!"gate_mode")
    let dt ← opt readStr (d.lookup cs!"dtype")
    let k ← deflt 2 (readInt L) (d.lookup cs!"experts_per_token")
    let sh ← opt (readList (readExpert L)) (d.lookup cs!"shared_experts")
    let a ← opt readStr (d.lookup cs!"architecture")
    .ok (⟨b, es, g, k, sh, a⟩, dt)
  | _ => .error .validation

end Verif.Document

namespace Verif.Main

open Verif.ModelRef (Str Ref)

/-- How the base model is loaded for its hidden states.  [moe/router.py:113-120] -/
inductive Quant where
  | no
  | four
  | eight
deriving DecidableEq

/-- moe/router.py:113-120 -/
def quantOf (four eight : Bool) : Quant := if four then .four else if eight then .eight else .no

/-- The modes for which the base model is loaded.  [moe/router.py:112] -/
def hiddenModes : List Str := [cs!"hidden", cs!"hidden_avg", cs!"hidden_last"]

/-- What surrounds a run: files, the YAML library, the conversions of the validation library, the surroundings of the building (`env`, whose `gates.probe` is asked in the mode without hidden
states), the hidden states of the base model for prompts, and what is in directories.  [scripts/moe.py:167-198; moe/router.py:71-151] -/
structure MoeWorld (K V T : Type) where
  file : Str → Option Str
  yaml : Str → Option (Document.Doc K)
  lib : Document.Lib K
  env : Moe.Env Ref K V T
  hidden : Quant → Str → List Str → List T
  dir : Str → Moe.Dir V

/-- How the command can end otherwise: the command line, a file that is not there or is not YAML, the document, the building, a model with an adapter (see `moeMain`).
[scripts/moe.py:142-198] -/
inductive MoeErr where
  | usage (e : CommandLine.Err)
  | noFile
  | syntax
  | config (e : Document.Err)
  | build (e : Moe.BuildErr)
  | adapter

/-- A setting of merges that is a truth value, true by default.  [options.py:27, 32] -/
def settingOf (k : CommandLine.Call) (name : Str) : Bool := (CommandLine.boolOf (k.merge.lookup name)).getD true

/-- The `_do_it` of a mode, moe/router.py:102-138. -/
def gatesFor {K V T : Type} (W : MoeWorld K V T) (q : Quant) : Moe.Gates T :=
  { W.env.gates with probe := fun mode p => if mode ∈ hiddenModes then W.hidden q mode p else W.env.gates.probe mode p }

/-- `main`, scripts/moe.py:167-198, with what is in the output directory afterwards.  `initialize_io` (moe/common.py:19-32) opens the base model and the experts' models by `lazy_loader`,
whose `local_path` asserts that there is no adapter (common.py:150-157, 178-189); so such a run does not succeed.  (Which of two errors is reported first, and what a failing run leaves, is
not described.) -/
def moeMain {K V T : Type} (W : MoeWorld K V T) (line : List Str) : Except MoeErr (Moe.Dir V) :=
  match CommandLine.call CommandLine.moe line with
  | .error e => .error (.usage e)
  | .ok k =>
    match W.file (argument k cs!"config_path") with
    | none => .error .noFile
    | some text =>
      match W.yaml text with
      | none => .error .syntax
      | some d =>
        match Document.readMoe W.lib d with
        | .error e => .error (.config e)
        | .ok (c, dtype) =>
          match Moe.main { W.env with gates := gatesFor W (quantOf (flagOf k cs!"load_in_4bit" false) (flagOf k cs!"load_in_8bit" false)) } text c
              { copyTokenizer := settingOf k cs!"copy_tokenizer", writeModelCard := settingOf k cs!"write_model_card",
                allowAllSame := flagOf k cs!"i_understand_this_is_not_useful_without_training" false, dtype } (W.dir (argument k cs!"out_path")) with
          | (_, some e) => .error (.build e)
          | (dir, none) => if (c.base :: c.experts.map (·.source)).any (fun r => r.lora.isSome) then .error .adapter else .ok dir

end Verif.Main
