import Verif.Model.Lora

/-! # A whole extraction (`/repo/mergekit/scripts/extract_lora.py:102-193`), and what PEFT makes of it -/

namespace Verif.Lora

open Verif.ModelRef (Str)

section
variable {T : Type}

/-- What a run leaves in the output directory: the tensors of `adapter_model` and `adapter_config.json`.  (The model card is in `Verif.Card`.)
[scripts/extract_lora.py:166-180] -/
structure Saved (T : Type) where
  tensors : List (Str × T)
  config : Config

/-- `module_real_ranks`, scripts/extract_lora.py:160-165: the rows of the first matrix of each decomposition.  (In the code the order is that of execution.) -/
def ranks [Sub T] (base model : Str → Option T) (decomp : Bool → T → T × T) (rows : T → Nat) (acts : List (Module × Action)) : List (Str × Nat) :=
  acts.filterMap (fun e =>
    if e.2 = .lora then
      match base (e.1.name ++ cs!".weight"), model (e.1.name ++ cs!".weight") with
      | some b, some f => some (e.1.name, rows (decomp (decide (e.1.kind = .embedding)) (f - b)).1)
      | _, _ => none
    else none)

/-- `main`, scripts/extract_lora.py:117-180, with the options after `plan_extraction` has compared the vocabularies (`extractAny`).  (Executing the tasks is the business of `Verif.Graph`, writing the
tensors that of `Verif.Writer`.) -/
def extract [Sub T] (arch : Str → Option Bool) (base model : Str → Option T) (decomp : Bool → T → T × T) (rows : T → Nat) (o : Opts) (given : List Str)
    (ms : List Module) : Except Err (Saved T) :=
  match plan o given ms with
  | .error e => .error e
  | .ok (save, acts) =>
    match adapter arch base model decomp acts with
    | .error e => .error e
    | .ok ts =>
      match makeConfig (ranks base model decomp rows acts) save with
      | .error e => .error e
      | .ok c => .ok ⟨ts, c⟩

/-- No adapters for embeddings if the vocabularies differ in size, scripts/extract_lora.py:379-386. -/
def vocabOpts (baseVocab tunedVocab : Nat) (o : Opts) : Opts :=
  if tunedVocab ≠ baseVocab ∧ o.embedLora = true then { o with embedLora := false } else o

/-- `main`, scripts/extract_lora.py:117-180, for models with any vocabularies. -/
def extractAny [Sub T] (baseVocab tunedVocab : Nat) (arch : Str → Option Bool) (base model : Str → Option T) (decomp : Bool → T → T × T) (rows : T → Nat) (o : Opts) (given : List Str)
    (ms : List Module) : Except Err (Saved T) :=
  extract arch base model decomp rows (vocabOpts baseVocab tunedVocab o) given ms

/-! ## PEFT (a library, not code of the repository) -/

/-- Why PEFT refuses an adapter: a rank that is not positive, or a target that is of a kind it has no adapters for.  [the PEFT library on
scripts/extract_lora.py:203-218] -/
inductive PeftErr where
  | rank | kind
deriving DecidableEq

/-- A module that is replaced as a whole (`_set_trainable`: names that end in one of `modules_to_save`).  [the PEFT library on scripts/extract_lora.py:208] -/
def replaced (c : Config) (m : Module) : Bool := c.modulesToSave.any (fun k => k.isSuffixOf m.name)

/-- A module that gets an adapter (`check_target_module_exists`).  [the PEFT library on scripts/extract_lora.py:207] -/
def targeted (c : Config) (m : Module) : Bool := c.targetModules.any (fun t => decide (m.name = t) || ('.' :: t).isSuffixOf m.name)

/-- The name of a tensor of the adapter.  [the PEFT library on scripts/extract_lora.py:299-308, 520, 540] -/
def key (name part : Str) : Str := cs!"base_model.model." ++ name ++ part

/-- The weight of a module after `PeftModel.from_pretrained(base, adapter).merge_and_unload()`: `plus` adds, `product` multiplies the two matrices (and
transposes for embeddings) and scales by alpha over rank.  Adapters without tensors in the file start as zero.  [the PEFT library on
scripts/extract_lora.py:166-180] -/
def peftWeight (plus : T → T → T) (product : Bool → Nat → Nat → T → T → T) (base : Str → Option T) (a : Saved T) (m : Module) : Except PeftErr (Option T) :=
  if replaced a.config m then
    match a.tensors.lookup (key m.name cs!".weight") with
    | some t => .ok (some t)
    | none => .ok (base (m.name ++ cs!".weight"))
  else if targeted a.config m then
    if m.kind = .other then .error .kind
    else if peftValue a.config.rankPattern a.config.r m.name = 0 then .error .rank
    else
      let emb := decide (m.kind = .embedding)
      match a.tensors.lookup (key m.name (if emb then cs!".lora_embedding_A" else cs!".lora_A.weight")),
          a.tensors.lookup (key m.name (if emb then cs!".lora_embedding_B" else cs!".lora_B.weight")) with
      | some x, some y =>
        .ok ((base (m.name ++ cs!".weight")).map (fun b =>
          plus b (product emb (peftValue a.config.alphaPattern a.config.alpha m.name) (peftValue a.config.rankPattern a.config.r m.name) x y)))
      | _, _ => .ok (base (m.name ++ cs!".weight"))
  else .ok (base (m.name ++ cs!".weight"))

/-- Its bias: `lora_bias` is not among the entries of the configuration, so `lora_B` has no bias and the tensors for it are not used.  [the PEFT library on
scripts/extract_lora.py:203-218, 520] -/
def peftBias (base : Str → Option T) (a : Saved T) (m : Module) : Option T :=
  if replaced a.config m then
    match a.tensors.lookup (key m.name cs!".bias") with
    | some t => some t
    | none => base (m.name ++ cs!".bias")
  else base (m.name ++ cs!".bias")

/-- The weights and biases of all modules with a weight.  [the PEFT library on scripts/extract_lora.py:166-180] -/
def peftLoad (plus : T → T → T) (product : Bool → Nat → Nat → T → T → T) (base : Str → Option T) (a : Saved T) :
    List Module → Except PeftErr (List (Str × Option T × Option T))
  | [] => .ok []
  | m :: ms =>
    if m.hasWeight then
      match peftWeight plus product base a m with
      | .error e => .error e
      | .ok w =>
        match peftLoad plus product base a ms with
        | .error e => .error e
        | .ok r => .ok ((m.name, w, peftBias base a m) :: r)
    else peftLoad plus product base a ms

end

/-! ## Matrices of any size -/

/-- A matrix with its shape.  [scripts/extract_lora.py:232-253] -/
structure Mat where
  rows : Nat
  cols : Nat
  v : Matrix (Fin rows) (Fin cols) ℝ

/-- The entry at a place, zero outside.  [scripts/extract_lora.py:232-253] -/
noncomputable def Mat.at (a : Mat) (i j : Nat) : ℝ := if h : i < a.rows ∧ j < a.cols then a.v ⟨i, h.1⟩ ⟨j, h.2⟩ else 0

/-- `model - base`, scripts/extract_lora.py:270; matrices of different shapes (an error in the code) are not meant. -/
noncomputable instance : Sub Mat := ⟨fun a b => ⟨a.rows, a.cols, fun i j => a.v i j - b.at i j⟩⟩

/-- A sum; see the difference.  [the PEFT library on scripts/extract_lora.py:166-180] -/
noncomputable def Mat.plus (a b : Mat) : Mat := ⟨a.rows, a.cols, fun i j => a.v i j + b.at i j⟩

/-- `task_vector.T`, scripts/extract_lora.py:233-234. -/
def Mat.flip (a : Mat) : Mat := ⟨a.cols, a.rows, a.v.transpose⟩

/-- `lora_B @ lora_A`, times alpha over rank, transposed for embeddings.  [the PEFT library on scripts/extract_lora.py:166-180] -/
noncomputable def Mat.product (emb : Bool) (alpha rank : Nat) (a b : Mat) : Mat :=
  let p : Mat := ⟨b.rows, a.cols, fun i j => ((alpha : ℝ) / rank) * ∑ k : Fin b.cols, b.v i k * a.at k j⟩
  if emb then p.flip else p

/-- What `torch.linalg.svd(..., full_matrices=False)` gives, scripts/extract_lora.py:236-238. -/
structure Svd (m n : Nat) where
  u : Matrix (Fin m) (Fin (min m n)) ℝ
  s : Fin (min m n) → ℝ
  vh : Matrix (Fin (min m n)) (Fin n) ℝ

/-- `TaskVectorDecompositionTask.execute`, scripts/extract_lora.py:232-253. -/
noncomputable def decompMat (svd : ∀ m n, Matrix (Fin m) (Fin n) ℝ → Svd m n) (maxRank : Nat) (eps : ℝ) (distribute : Bool) (emb : Bool) (tv : Mat) : Mat × Mat :=
  let x := if emb then tv.flip else tv
  let d := svd x.rows x.cols x.v
  (⟨_, _, weightA (rankOf_le maxRank eps d.s) distribute d.s d.vh⟩, ⟨_, _, weightB (rankOf_le maxRank eps d.s) distribute d.s d.u⟩)

end Verif.Lora
