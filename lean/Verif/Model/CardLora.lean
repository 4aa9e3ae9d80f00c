import Verif.Model.Card

/-! # Cards of extracted adapters (`/repo/mergekit/card.py:41-59, 188-222`, `scripts/extract_lora.py:180-191`) -/

namespace Verif.Card

open Verif.ModelRef (Str Ref)

/-- `" ".join(sys.argv)`, scripts/extract_lora.py:180. -/
def joinWords : List Str → Str
  | [] => []
  | [l] => l
  | l :: ls => l ++ ' ' :: joinWords ls

/-- The warning about the vocabulary, card.py:207-213: only if both sizes are known (and not zero) and differ. -/
def warning : Option Nat → Option Nat → Str
  | some b, some f =>
    if b ≠ 0 ∧ f ≠ 0 ∧ b ≠ f then
      cs!"\n\n [!WARNING]\n> The vocabulary size has been " ++ (if f > b then cs!"extended" else cs!"reduced") ++ cs!" from the base model's " ++ Nat.toDigits 10 b ++ cs!" to " ++
        Nat.toDigits 10 f ++ cs!". To load this adapter, you must first call `model.resize_token_embeddings(" ++ Nat.toDigits 10 f ++ cs!")`."
    else []
  | _, _ => []

/-- The template `CARD_TEMPLATE_LORA` filled in, card.py:41-59, 215-222. -/
def fillLora (meta' : List Str) (name details invocation : Str) : Str :=
  joinLines [cs!"---", joinLines meta', cs!"---", cs!"# " ++ name, [],
    cs!"This is a LoRA extracted from a language model. It was extracted using [mergekit](https://github.com/arcee-ai/mergekit).", [],
    cs!"## LoRA Details", [], details, [],
    cs!"### Parameters", [], cs!"The following command was used to extract this LoRA adapter:", [],
    cs!"```sh", invocation, cs!"```", []]

/-- `generate_card_lora`, card.py:188-222. -/
def generateCardLora (w : World) (base finetuned : Ref) (invocation name : Str) (baseVocab finalVocab : Option Nat) : Except CardError Str :=
  let name := if name = [] then cs!"Untitled LoRA Model (1)" else name
  match hfPaths w [base, finetuned] with
  | .error e => .error e
  | .ok bases =>
    match modelMd w finetuned with
    | .error e => .error e
    | .ok f =>
      match modelMd w base with
      | .error e => .error e
      | .ok b =>
        .ok (fillLora (metadata w bases [cs!"mergekit", cs!"peft"] cs!"peft") name
          (cs!"This LoRA adapter was extracted from " ++ f ++ cs!" and uses " ++ b ++ cs!" as a base." ++ warning baseVocab finalVocab) invocation)

/-- What `mergekit-extract-lora` writes as README.md, scripts/extract_lora.py:180-191; the sizes of the vocabularies are always known there. -/
def loraReadme (w : World) (base model : Ref) (argv : List Str) (out : Str) (baseVocab finalVocab : Nat) : Except CardError Str :=
  generateCardLora w base model (joinWords argv) (Resume.basename out) (some baseVocab) (some finalVocab)

end Verif.Card
