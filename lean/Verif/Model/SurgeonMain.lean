import Verif.Model.Magikarp
import Verif.Model.NewRows
import Verif.Model.ScriptMain
import Verif.Model.SurgeonConfig

/-! # `mergekit-tokensurgeon` as a whole (`/repo/mergekit/scripts/tokensurgeon.py:533-797`)

Joins the command line (`Model/CommandLine.lean`), the search for well-trained tokens (`Model/Magikarp.lean`), the new matrices (`Model/TokenSurgeon.lean`) and the configuration
(`Model/SurgeonConfig.lean`).  The methods of approximation are a parameter here (they have models of their own); so is what the libraries read from the disk.  The options that only say how tensors are
read and written (devices, threads, formats, caches) have no effect here. -/

namespace Verif.Main

open Verif.ModelRef (Str Ref ModelPath Cfg)
open Verif.Tok (NToken)
open Verif.Surgeon (Emb Vocab Wi Approx AllowMatch)

/-- A row of a matrix.  [scripts/tokensurgeon.py:445-450] -/
abbrev Row := Nat → ℝ

/-- The options of the command, with their types.  [scripts/tokensurgeon.py:537-622, 643-657] -/
structure SurgeonSettings where
  k : Int
  cosine : Bool
  method : NewRows.Method
  scheme : Str
  subword : Str
  batch : Int
  prefixes : AllowMatch
  bytes : AllowMatch
  magikarp : Bool
  noise : Option ℝ
  scale : Option ℝ

/-- What surrounds a run: the models merged with adapters in a directory (`merged`, common.py:110-140), the weights of a model's architecture (`get_arch_info`, if it has one module,
scripts/tokensurgeon.py:96-116), the key for the size of the vocabulary, configurations (and how a number or `None` is put there), tokenizers with their tokens, special tokens and prefix of words
(`normalized_vocabulary`, tokenizer/normalization.py:67-121), tensors, the length of the rows of a model's input and output embedding, the characters `strip` removes, numbers, random rows, and
`compute_new_embeddings` with `compute_token_basis` (scripts/tokensurgeon.py:256-389, 433-443).  [scripts/tokensurgeon.py:624-797] -/
structure SurgeonWorld (V Tk : Type) where
  adapted : Str → Ref → Option Ref
  arch : Ref → Option Surgeon.Arch
  vocabKey : Ref → Option Str
  config : Ref → Cfg V
  number : Option Nat → V
  tokenizer : ModelPath → Tk
  tokens : Tk → List (Str × Nat)
  special : Tk → List (Str × List Str)
  wordStart : Tk → Str
  tensors : Ref → Str → Option (Emb Row)
  width : Ref → Bool → Nat
  blank : Char → Bool
  float : Str → Option ℝ
  randn : Bool → Nat → Nat → Row
  compute : SurgeonSettings → Ref → Ref → Bool → Emb Row → Emb Row → Vocab → Vocab → List Nat → List NToken → Except Surgeon.Err (List Row)

/-- How the command can end otherwise: the command line, a value that is no number or none of the choices (errors of the command line in `click`), a text that names no model, an adapter that cannot be
merged into its model, an architecture that is not known or has several modules, the transplant, the configuration.  [scripts/tokensurgeon.py:624-797] -/
inductive SurgeonErr where
  | usage (e : CommandLine.Err)
  | badValue
  | badModel
  | adapter
  | architecture
  | run (e : Surgeon.Err)
  | config

/-- What a run leaves: the tensors saved, in order, the configuration and the tokenizer, all in a directory; and whether something was loaded with `trust_remote_code=True`.
[scripts/tokensurgeon.py:760-797, 475-484] -/
structure Surgery (V Tk : Type) where
  out : Str
  tensors : List (Str × Emb Row)
  config : Cfg V
  tokenizer : Tk
  remote : Bool

/-! ## Options -/

/-- `ApproximationMethod(...)`, scripts/tokensurgeon.py:70-80. -/
def methodOf (s : Str) : Option NewRows.Method :=
  if s = cs!"common_interpolation" then some .commonInterpolation
  else if s = cs!"subword" then some .subword
  else if s = cs!"mean" then some .mean
  else if s = cs!"zero" then some .zero
  else if s = cs!"randn" then some .randn
  else if s = cs!"john_hewitt" then some .johnHewitt
  else if s = cs!"omp" then some .omp
  else if s = cs!"landmark_pca" then some .landmarkPca
  else if s = cs!"stb" then some .stb
  else if s = cs!"mp_rope" then some .mpRope
  else none

/-- `AllowMatch(...)`, scripts/tokensurgeon.py:526-530. -/
def allowOf (s : Str) : Option AllowMatch :=
  if s = cs!"lm_head" then some .lmHeadOnly
  else if s = cs!"embed" then some .embedOnly
  else if s = cs!"yes" then some .yes
  else if s = cs!"no" then some .no
  else none

/-- `click.Choice`: one of some words.  [scripts/tokensurgeon.py:562-577] -/
def oneOf (l : List Str) (s : Str) : Option Str := if s ∈ l then some s else none

/-- `WeightingScheme`, tokensurgeon/common_interpolation.py:18-21. -/
def schemes : List Str := [cs!"distance_proportional", cs!"barycentric", cs!"least_squares"]

/-- `SubwordMethod`, tokensurgeon/subword.py:13-17. -/
def subwords : List Str := [cs!"mean", cs!"sum", cs!"weighted_mean", cs!"first_last"]

/-- An option with a type and a default.  [scripts/tokensurgeon.py:537-610] -/
def optionOf {A : Type} (k : CommandLine.Call) (name : Str) (default : A) (f : Str → Option A) : Option A :=
  match wordOf k name with
  | none => some default
  | some s => f s

/-- The options with their types and defaults, scripts/tokensurgeon.py:537-622. -/
def settingsOf (float : Str → Option ℝ) (c : CommandLine.Call) : Option SurgeonSettings :=
  (optionOf c cs!"k" 64 ModelRef.pyInt).bind fun k => (optionOf c cs!"approximation_method" .omp methodOf).bind fun method =>
  (optionOf c cs!"weight_scheme" cs!"distance_proportional" (oneOf schemes)).bind fun scheme => (optionOf c cs!"subword_method" cs!"mean" (oneOf subwords)).bind fun subword =>
  (optionOf c cs!"batch_size" 512 ModelRef.pyInt).bind fun batch => (optionOf c cs!"prefix_match" .no allowOf).bind fun prefixes =>
  (optionOf c cs!"byte_match" .no allowOf).bind fun bytes => (optionOf c cs!"new_vocab_noise" none (fun s => (float s).map some)).bind fun noise =>
  (optionOf c cs!"new_vocab_scale" none (fun s => (float s).map some)).map fun scale =>
  { k, cosine := flagOf c cs!"cosine_similarity" false, method, scheme, subword, batch, prefixes, bytes, magikarp := flagOf c cs!"magikarp" false, noise, scale }

/-! ## The transplant -/

section
variable {V Tk : Type}

/-- The model whose tensors are read: `model.merged(cache_dir=self.lora_cache_dir, ...)`, io/tasks.py:36-46; common.py:100-140. -/
def readFrom (W : SurgeonWorld V Tk) (cache : Option Str) (r : Ref) : Option Ref :=
  match r.lora with
  | none => some r
  | some _ => match cache with
    | none => none
    | some c => if c = [] then none else W.adapted c r

/-- `normalized_vocabulary` of a model's tokenizer, scripts/tokensurgeon.py:148-153. -/
def vocabOf (W : SurgeonWorld V Tk) (r : Ref) : Vocab :=
  Surgeon.normalizedDict (W.special (W.tokenizer r.model)) (W.wordStart (W.tokenizer r.model)) (W.tokens (W.tokenizer r.model))

open Classical in
/-- A factor that is used if it is given and not zero.  [scripts/tokensurgeon.py:507-510] -/
noncomputable def factor (x : Option ℝ) : Option ℝ :=
  match x with
  | none => none
  | some z => if z = 0 then none else some z

/-- The approximation with noise and scaling, scripts/tokensurgeon.py:433-443, 496-510. -/
noncomputable def approxOf (W : SurgeonWorld V Tk) (s : SurgeonSettings) (m d : Ref) (head : Bool) (v dv : Vocab) (junk : List Nat) (x y : Emb Row) : Approx Row where
  compute := W.compute s m d head x y (Surgeon.safe v x.rows) (Surgeon.safe dv y.rows) (Surgeon.allJunk junk dv y.rows)
  shared := decide (s.method = .mean)
  noise := (factor s.noise).map (fun z b i j => W.randn head b i j * z)
  scale := (factor s.scale).map (fun z r j => r j * z)

/-- The vocabulary and the junk tokens, scripts/tokensurgeon.py:674-706.  (Without an input embedding `well_trained_tokens` asks `None` for its shape.) -/
noncomputable def selected (W : SurgeonWorld V Tk) (magikarp : Bool) (m d : Ref) (oe oh de dh : Option (Emb Row)) : Except Surgeon.Err (Vocab × List Nat) :=
  if magikarp then
    match oe, de with
    | some x, some y =>
      match Magikarp.select true ⟨vocabOf W m, x, W.width m false, oh, W.width m true⟩ ⟨vocabOf W d, y, W.width d false, dh, W.width d true⟩ with
      | .ok r => .ok r
      | .error _ => .error .runtime
    | _, _ => .error .attribute
  else .ok (vocabOf W m, [])

/-- `main`, scripts/tokensurgeon.py:665-787, for models whose tensors are those of `m'` and `d'`: the new size of the vocabulary, the tensors saved, and whether a matrix was built. -/
noncomputable def operate (W : SurgeonWorld V Tk) (s : SurgeonSettings) (m d m' d' : Ref) (a da : Surgeon.Arch) : Except Surgeon.Err (Option Nat × List (Str × Emb Row) × Bool) :=
  (Surgeon.theEmbedding a.pre).bind fun e => (Surgeon.theEmbedding a.post).bind fun h =>
  (Surgeon.getEmbedding (W.tensors m') e false).bind fun oe => (Surgeon.getEmbedding (W.tensors m') h false).bind fun oh =>
  (Surgeon.theEmbedding da.pre).bind fun de => (Surgeon.theEmbedding da.post).bind fun dh =>
  (Surgeon.getEmbedding (W.tensors d') de true).bind fun doe => (Surgeon.getEmbedding (W.tensors d') dh true).bind fun doh =>
  (selected W s.magikarp m d oe oh doe doh).bind fun sel =>
  (Surgeon.newMatrix (fun x y => Surgeon.build W.blank (Surgeon.allowedForEmbed s.bytes) (Surgeon.allowedForEmbed s.prefixes) (approxOf W s m d false sel.1 (vocabOf W d) sel.2 x y)
    (some s.batch) x y.rows sel.1 (vocabOf W d) sel.2) oe doe).bind fun ne =>
  (Surgeon.newMatrix (fun x y => Surgeon.build W.blank (Surgeon.allowedForHead s.bytes) (Surgeon.allowedForHead s.prefixes) (approxOf W s m d true sel.1 (vocabOf W d) sel.2 x y)
    (some s.batch) x y.rows sel.1 (vocabOf W d) sel.2) oh doh).bind fun nh =>
  match e, h with
  | some e, some h => (Surgeon.writeAll e h ne nh (W.tensors m') (a.pre ++ a.layers ++ a.post)).map fun out => (Surgeon.newSize ne nh, out, ne.isSome || nh.isSome)
  | _, _ => .error .attribute

/-- A setting of merges that is a text.  [options.py:154-161] -/
def cacheOf (k : CommandLine.Call) : Option Str :=
  match k.merge.lookup cs!"lora_merge_cache" with
  | some (some (.str s)) => some s
  | _ => none

/-- `main`, scripts/tokensurgeon.py:624-797.  `build_embedding_matrix` loads both tokenizers with `trust_remote_code=True` (scripts/tokensurgeon.py:475-484). -/
noncomputable def surgeonMain (W : SurgeonWorld V Tk) (line : List Str) : Except SurgeonErr (Surgery V Tk) :=
  match CommandLine.call CommandLine.tokensurgeon line with
  | .error e => .error (.usage e)
  | .ok c =>
    match settingsOf W.float c with
    | none => .error .badValue
    | some s =>
      match ModelRef.parse (argument c cs!"model"), ModelRef.parse (argument c cs!"donor") with
      | .ok m, .ok d =>
        match readFrom W (cacheOf c) m, readFrom W (cacheOf c) d with
        | some m', some d' =>
          match W.arch m, W.arch d with
          | some a, some da =>
            match operate W s m d m' d' a da with
            | .error e => .error (.run e)
            | .ok (size, tensors, built) =>
              match Surgeon.outConfig W.number (W.vocabKey m) size (W.config m) (W.config d) with
              | .error _ => .error .config
              | .ok config =>
                .ok { out := argument c cs!"out_path", tensors, config, tokenizer := W.tokenizer d.model,
                      remote := (CommandLine.boolOf (c.merge.lookup cs!"trust_remote_code")).getD false || built }
          | _, _ => .error .architecture
        | _, _ => .error .adapter
      | _, _ => .error .badModel

end

end Verif.Main
