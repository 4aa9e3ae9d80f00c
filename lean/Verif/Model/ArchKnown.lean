import Verif.Model.ArchData
import Verif.Model.Infer

/-! # The names under which the shipped definitions are known

Transcribed from `/repo/mergekit/_data/architectures/*.json` (generated): for every file the names of architectures and the model type it
gives, and the modules of it (Model/ArchData.lean). -/

namespace Verif.Arch.Data

open Verif.ModelRef (Str)
open Verif.Arch

/-- `architectures` and `model_type` of the data files, `_data/architectures/*.json`, as `_load_all_architectures` reads them,
json_definitions.py:143-166, 171-184 (in the order of the file names; the code takes that of the directory). -/
def known : List (List Str × Str × List Module) := [
  ([cs!"_AfmoePartialForCausalLM"], cs!"_afmoe_partial", afmoe_partial),
  ([cs!"ApertusForCausalLM"], cs!"apertus", apertus),
  ([cs!"ArceeForCausalLM"], cs!"arcee", arcee),
  ([cs!"BaichuanForCausalLM"], cs!"baichuan", baichuan),
  ([cs!"BertForMaskedLM"], cs!"bert", bert_masked_lm),
  ([cs!"BertForSequenceClassification", cs!"BertForMultipleChoice", cs!"BertForTokenClassification"], cs!"bert", bert_sequence_classification),
  ([cs!"BertModel"], cs!"bert", bert),
  ([cs!"ChatGLMModel"], cs!"chatglm", chatglm),
  ([cs!"CohereForCausalLM"], cs!"cohere", cohere),
  ([cs!"Cohere2ForCausalLM"], cs!"cohere2", cohere2),
  ([cs!"DistilBertForMaskedLM"], cs!"distilbert", distilbert_masked_lm),
  ([cs!"DistilBertForSequenceClassification"], cs!"distilbert", distilbert_sequence_classification),
  ([cs!"DistilBertForTokenClassification"], cs!"distilbert", distilbert_token_classification),
  ([cs!"DistilBertModel"], cs!"distilbert", distilbert),
  ([cs!"ExaoneForCausalLM"], cs!"exaone", exaone),
  ([cs!"FalconForCausalLM"], cs!"falcon", falcon),
  ([cs!"GemmaForCausalLM"], cs!"gemma", gemma),
  ([cs!"Gemma2ForCausalLM"], cs!"gemma2", gemma2),
  ([cs!"Gemma3ForCausalLM"], cs!"gemma3_text", gemma3),
  ([cs!"Gemma3ForConditionalGeneration"], cs!"gemma3", gemma3vl),
  ([cs!"Glm4ForCausalLM"], cs!"glm4", glm4),
  ([cs!"Glm4MoeForCausalLM"], cs!"glm4_moe", glm4moe),
  ([cs!"GPTNeoXForCausalLM"], cs!"gpt_neox", gpt_neox),
  ([cs!"GPT2ForSequenceClassification"], cs!"gpt2", gpt2_sequence_classification),
  ([cs!"GPT2LMHeadModel"], cs!"gpt2", gpt2),
  ([cs!"GPTBigCodeForCausalLM"], cs!"gpt_bigcode", gptbigcode),
  ([cs!"GraniteForCausalLM"], cs!"granite", granite),
  ([cs!"GraniteMoeHybridForCausalLM"], cs!"granitemoehybrid", granite4moehybrid),
  ([cs!"InternLM2ForCausalLM"], cs!"internlm2", internlm2),
  ([cs!"JAISLMHeadModel"], cs!"jais", jais),
  ([cs!"Lfm2ForCausalLM"], cs!"lfm2", lfm2),
  ([cs!"LlamaForSequenceClassification"], cs!"llama", llama_sequence_classification),
  ([cs!"LlamaForCausalLM", cs!"LLaMaForCausalLM"], cs!"llama", llama),
  ([cs!"Llama4ForConditionalGeneration"], cs!"llama4", llama4),
  ([cs!"MambaForCausalLM"], cs!"mamba", mamba),
  ([cs!"MistralForCausalLM"], cs!"mistral", mistral),
  ([cs!"Mistral3ForConditionalGeneration"], cs!"mistral3", mistral3),
  ([cs!"MixtralForCausalLM"], cs!"mixtral", mixtral),
  ([cs!"Olmo2ForCausalLM"], cs!"olmo2", olmo2),
  ([cs!"MixFormerSequentialForCausalLM"], cs!"mixformer-sequential", phi_1),
  ([cs!"PhiForCausalLM"], cs!"phi-msft", phi2_old),
  ([cs!"PhiForCausalLM"], cs!"phi", phi2),
  ([cs!"Phi3SmallForCausalLM"], cs!"phi3small", phi3_small),
  ([cs!"Phi3ForCausalLM"], cs!"phi3", phi3),
  ([cs!"QWenLMHeadModel"], cs!"qwen", qwen),
  ([cs!"Qwen2ForCausalLM"], cs!"qwen2", qwen2),
  ([cs!"Qwen2_5_VLForConditionalGeneration"], cs!"qwen2_5_vl", qwen2_5_vl),
  ([cs!"Qwen2VLForConditionalGeneration"], cs!"qwen2_vl", qwen2_vl),
  ([cs!"Qwen3ForCausalLM"], cs!"qwen3", qwen3),
  ([cs!"Qwen3MoeForCausalLM"], cs!"qwen3_moe", qwen3_moe),
  ([cs!"Qwen3VLMoeForConditionalGeneration"], cs!"qwen3_vl_moe", qwen3_vl),
  ([cs!"Qwen3VLForConditionalGeneration"], cs!"qwen3_vl", qwen3_vl_dense),
  ([cs!"RobertaForMaskedLM"], cs!"roberta", roberta_masked_lm),
  ([cs!"RobertaForSequenceClassification"], cs!"roberta", roberta_sequence_classification),
  ([cs!"RobertaForTokenClassification"], cs!"roberta", roberta_token_classification),
  ([cs!"RobertaModel"], cs!"roberta", roberta),
  ([cs!"SolarForCausalLM"], cs!"solar", solar),
  ([cs!"StableLMEpochForCausalLM"], cs!"stablelm_epoch", stablelm),
  ([cs!"StableLmForCausalLM"], cs!"stablelm", stablelm2),
  ([cs!"Starcoder2ForCausalLM"], cs!"starcoder2", starcoder2),
  ([cs!"T5ForConditionalGeneration"], cs!"t5", t5),
  ([cs!"WhisperForConditionalGeneration"], cs!"whisper", whisper)]

/-- The definitions written in python, architecture/__init__.py:38-51: AFMoE and GLM-4-MoE, made from the configuration (`afmoe`, `glm4`). -/
def pythonKnown {A : Type} (afmoe glm4 : Infer.ModelInfo → A) (name : Str) : Option (Infer.ModelInfo → A) :=
  if name = cs!"AfmoeForCausalLM" then some afmoe
  else if name = cs!"Glm4MoeForCausalLM" then some glm4
  else none

end Verif.Arch.Data
