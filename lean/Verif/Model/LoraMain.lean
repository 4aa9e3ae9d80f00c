import Verif.Model.CardLora
import Verif.Model.LoraWhole
import Verif.Model.ScriptMain

/-! # `mergekit-extract-lora` as a whole (`/repo/mergekit/scripts/extract_lora.py:30-193`)

Joins the command line (`Model/CommandLine.lean`), the extraction (`Model/LoraWhole.lean`) and the model card (`Model/CardLora.lean`).  Executing the tasks and writing the tensors are the
business of `Verif.Graph` and `Verif.Writer`; the options that only say how (devices, threads, formats) have no effect here. -/

namespace Verif.Main

open Verif.ModelRef (Str Ref)
open Verif.Lora (Mat Module Svd Saved decompMat extractAny)

/-- What surrounds a run: the models merged with adapters in a directory (`merged`, common.py:110-140), the rows of a model's input embedding and its modules (`_make_dummy_model`), the
weights its architecture lists, its tensors, regular expressions (`re.search`; expressions that are none are not meant), numbers, `torch.linalg.svd`, and what the card looks at.
[scripts/extract_lora.py:117-193, 329-341, 360-381] -/
structure LoraWorld where
  adapted : Str → Ref → Option Ref
  vocab : Ref → Nat
  modules : Ref → List Module
  arch : Ref → Str → Option Bool
  tensors : Ref → Str → Option Mat
  search : Str → Str → Bool
  float : Str → Option ℝ
  svd : ∀ m n, Matrix (Fin m) (Fin n) ℝ → Svd m n
  card : Card.World

/-- How the command can end otherwise: the command line, a number that is none (an error of the command line in `click`), a text that names no model, an adapter that cannot be merged into its
model, a negative rank where an identity of that size is needed, the extraction, the card.  [scripts/extract_lora.py:102-193] -/
inductive LoraErr where
  | usage (e : CommandLine.Err)
  | badNumber
  | badModel
  | adapter
  | rank
  | run (e : Lora.Err)
  | card (e : Card.CardError)

/-- What is in the output directory: the adapter, the model its configuration names (`base_model_name_or_path`, scripts/extract_lora.py:205), and README.md.
[scripts/extract_lora.py:167-191] -/
structure LoraFiles where
  out : Str
  saved : Saved Mat
  named : Str
  readme : Str

/-- A setting of merges that is a text.  [scripts/extract_lora.py:126-134; options.py:154-161] -/
def textOf (k : CommandLine.Call) (name : Str) : Option Str :=
  match k.merge.lookup name with
  | some (some (.str s)) => some s
  | _ => none

/-- `ref.merged(cache_dir=merge_options.lora_merge_cache, ...)`, common.py:100-140. -/
def mergedIn (W : LoraWorld) (cache : Option Str) (r : Ref) : Option Ref :=
  match r.lora with
  | none => some r
  | some _ => match cache with
    | none => none
    | some c => if c = [] then none else W.adapted c r

/-- A number option with its default: `type=int, default=128`, scripts/extract_lora.py:46-51. -/
def rankGiven (k : CommandLine.Call) : Option Int :=
  match wordOf k cs!"max_rank" with
  | none => some 128
  | some s => ModelRef.pyInt s

/-- `type=float, default=0`, scripts/extract_lora.py:87-93. -/
def epsGiven (W : LoraWorld) (k : CommandLine.Call) : Option ℝ :=
  match wordOf k cs!"sv_epsilon" with
  | none => some 0
  | some s => W.float s

/-- `any(re.search(r, name) for r in regexes)`, scripts/extract_lora.py:392-394, 422. -/
def foundAny (W : LoraWorld) (regexes : List Str) (name : Str) : Bool := regexes.any (fun r => W.search r name)

/-- The options as `plan_extraction` uses them, scripts/extract_lora.py:135-146, 391-396. -/
def loraOpts (W : LoraWorld) (k : CommandLine.Call) : Lora.Opts where
  embedLora := flagOf k cs!"embed_lora" false
  skipUndecomposable := flagOf k cs!"skip_undecomposable" false
  included := fun n => (wordsOf k cs!"include_regexes").isEmpty || foundAny W (wordsOf k cs!"include_regexes") n
  excluded := foundAny W (wordsOf k cs!"exclude_regexes")

/-- `TaskVectorDecompositionTask.execute`, scripts/extract_lora.py:232-253, for any `max_rank`: with a negative one `s[:rank]`, `vh[:rank]` and `u[:, :rank]` leave out that many of the last
(the threshold has no effect then, since `min` keeps the negative number). -/
noncomputable def decompInt (svd : ∀ m n, Matrix (Fin m) (Fin n) ℝ → Svd m n) (maxRank : Int) (eps : ℝ) (distribute : Bool) (emb : Bool) (tv : Mat) : Mat × Mat :=
  if maxRank < 0 then decompMat svd ((min tv.rows tv.cols : Nat) + maxRank).toNat 0 distribute emb tv
  else decompMat svd maxRank.toNat eps distribute emb tv

/-- `main`, scripts/extract_lora.py:102-193; `prog` is `sys.argv[0]`.  `torch.eye` refuses a negative size (scripts/extract_lora.py:248). -/
noncomputable def loraMain (W : LoraWorld) (prog : Str) (line : List Str) : Except LoraErr LoraFiles :=
  match CommandLine.call CommandLine.extractLora line with
  | .error e => .error (.usage e)
  | .ok k =>
    match rankGiven k, epsGiven W k with
    | some rank, some eps =>
      match ModelRef.parse ((wordOf k cs!"base_model").getD []), ModelRef.parse ((wordOf k cs!"model").getD []) with
      | .ok base, .ok model =>
        match mergedIn W (textOf k cs!"lora_merge_cache") base, mergedIn W (textOf k cs!"lora_merge_cache") model with
        | some base', some model' =>
          if rank < 0 ∧ flagOf k cs!"distribute_scale" true = false then .error .rank
          else
            match extractAny (W.vocab base') (W.vocab model') (W.arch model') (W.tensors base') (W.tensors model')
                (decompInt W.svd rank eps (flagOf k cs!"distribute_scale" true)) Mat.rows (loraOpts W k) (wordsOf k cs!"modules_to_save") (W.modules model') with
            | .error e => .error (.run e)
            | .ok saved =>
              match Card.loraReadme W.card base model (prog :: line) ((wordOf k cs!"out_path").getD []) (W.vocab base') (W.vocab model') with
              | .error e => .error (.card e)
              | .ok readme => .ok { out := (wordOf k cs!"out_path").getD [], saved, named := base.model.path, readme }
        | _, _ => .error .adapter
      | _, _ => .error .badModel
    | _, _ => .error .badNumber

end Verif.Main
