import Verif.Model.Arch
import Verif.Model.Chars

/-! # The architecture definitions shipped with the package

Transcribed from `/repo/mergekit/_data/architectures/*.json` (generated; one definition per file): for every module its weights before, in and after
the layers, `override_num_layers` and `weight_prefix`.  Entries the code does not read are left out. -/

namespace Verif.Arch.Data

open Verif.Arch

/-- `_data/architectures/afmoe_partial.json` (whole file). -/
def afmoe_partial : List Module := [
  { pre := [{ name := cs!"model.embed_tokens.weight", isEmbed := true }]
    layers := [{ name := cs!"model.layers.${layer_index}.input_layernorm.weight" },
      { name := cs!"model.layers.${layer_index}.pre_mlp_layernorm.weight" },
      { name := cs!"model.layers.${layer_index}.mlp.down_proj.weight", optional := true },
      { name := cs!"model.layers.${layer_index}.mlp.gate_proj.weight", optional := true },
      { name := cs!"model.layers.${layer_index}.mlp.up_proj.weight", optional := true },
      { name := cs!"model.layers.${layer_index}.mlp.shared_experts.down_proj.weight", optional := true },
      { name := cs!"model.layers.${layer_index}.mlp.shared_experts.gate_proj.weight", optional := true },
      { name := cs!"model.layers.${layer_index}.mlp.shared_experts.up_proj.weight", optional := true },
      { name := cs!"model.layers.${layer_index}.mlp.expert_bias", optional := true },
      { name := cs!"model.layers.${layer_index}.mlp.router.gate.weight", optional := true },
      { name := cs!"model.layers.${layer_index}.post_mlp_layernorm.weight" },
      { name := cs!"model.layers.${layer_index}.self_attn.q_norm.weight" },
      { name := cs!"model.layers.${layer_index}.self_attn.q_proj.weight" },
      { name := cs!"model.layers.${layer_index}.self_attn.k_norm.weight" },
      { name := cs!"model.layers.${layer_index}.self_attn.k_proj.weight" },
      { name := cs!"model.layers.${layer_index}.self_attn.o_proj.weight" },
      { name := cs!"model.layers.${layer_index}.self_attn.v_proj.weight" },
      { name := cs!"model.layers.${layer_index}.self_attn.gate_proj.weight" },
      { name := cs!"model.layers.${layer_index}.post_attention_layernorm.weight" }]
    post := [{ name := cs!"model.norm.weight" },
      { name := cs!"lm_head.weight", isEmbed := true, optional := true, tiedNames := some [cs!"model.embed_tokens.weight"] }] }]

/-- `_data/architectures/apertus.json` (whole file). -/
def apertus : List Module := [
  { pre := [{ name := cs!"model.embed_tokens.weight", isEmbed := true }]
    layers := [{ name := cs!"model.layers.${layer_index}.attention_layernorm.weight" },
      { name := cs!"model.layers.${layer_index}.feedforward_layernorm.weight" },
      { name := cs!"model.layers.${layer_index}.mlp.act_fn.alpha_n" },
      { name := cs!"model.layers.${layer_index}.mlp.act_fn.alpha_p" },
      { name := cs!"model.layers.${layer_index}.mlp.act_fn.beta" },
      { name := cs!"model.layers.${layer_index}.mlp.act_fn.eps" },
      { name := cs!"model.layers.${layer_index}.mlp.down_proj.weight" },
      { name := cs!"model.layers.${layer_index}.mlp.up_proj.weight" },
      { name := cs!"model.layers.${layer_index}.self_attn.k_norm.weight" },
      { name := cs!"model.layers.${layer_index}.self_attn.k_proj.weight" },
      { name := cs!"model.layers.${layer_index}.self_attn.q_norm.weight" },
      { name := cs!"model.layers.${layer_index}.self_attn.q_proj.weight" },
      { name := cs!"model.layers.${layer_index}.self_attn.v_proj.weight" },
      { name := cs!"model.layers.${layer_index}.self_attn.o_proj.weight" }]
    post := [{ name := cs!"model.norm.weight" },
      { name := cs!"lm_head.weight", isEmbed := true, optional := true, tiedNames := some [cs!"model.embed_tokens.weight"] }] }]

/-- `_data/architectures/arcee.json` (whole file). -/
def arcee : List Module := [
  { pre := [{ name := cs!"model.embed_tokens.weight", isEmbed := true }]
    layers := [{ name := cs!"model.layers.${layer_index}.input_layernorm.weight" },
      { name := cs!"model.layers.${layer_index}.mlp.down_proj.weight" },
      { name := cs!"model.layers.${layer_index}.mlp.up_proj.weight" },
      { name := cs!"model.layers.${layer_index}.post_attention_layernorm.weight" },
      { name := cs!"model.layers.${layer_index}.self_attn.k_proj.weight" },
      { name := cs!"model.layers.${layer_index}.self_attn.o_proj.weight" },
      { name := cs!"model.layers.${layer_index}.self_attn.q_proj.weight" },
      { name := cs!"model.layers.${layer_index}.self_attn.v_proj.weight" }]
    post := [{ name := cs!"model.norm.weight" },
      { name := cs!"lm_head.weight", isEmbed := true, optional := true, tiedNames := some [cs!"model.embed_tokens.weight"] }] }]

/-- `_data/architectures/baichuan.json` (whole file). -/
def baichuan : List Module := [
  { pre := [{ name := cs!"model.embed_tokens.weight", isEmbed := true }]
    layers := [{ name := cs!"model.layers.${layer_index}.input_layernorm.weight" },
      { name := cs!"model.layers.${layer_index}.self_attn.W_pack.weight" },
      { name := cs!"model.layers.${layer_index}.self_attn.o_proj.weight" },
      { name := cs!"model.layers.${layer_index}.post_attention_layernorm.weight" },
      { name := cs!"model.layers.${layer_index}.mlp.gate_proj.weight" },
      { name := cs!"model.layers.${layer_index}.mlp.down_proj.weight" },
      { name := cs!"model.layers.${layer_index}.mlp.up_proj.weight" }]
    post := [{ name := cs!"model.norm.weight" },
      { name := cs!"lm_head.weight", isEmbed := true }] }]

/-- `_data/architectures/bert-masked-lm.json` (whole file). -/
def bert_masked_lm : List Module := [
  { pre := [{ name := cs!"bert.embeddings.position_embeddings.weight" },
      { name := cs!"bert.embeddings.token_type_embeddings.weight" },
      { name := cs!"bert.embeddings.word_embeddings.weight", isEmbed := true },
      { name := cs!"bert.embeddings.LayerNorm.bias", aliases := some [cs!"bert.embeddings.LayerNorm.beta"] },
      { name := cs!"bert.embeddings.LayerNorm.weight", aliases := some [cs!"bert.embeddings.LayerNorm.gamma"] },
      { name := cs!"bert.embeddings.position_ids", optional := true, forceDtype := some cs!"int64" }]
    layers := [{ name := cs!"bert.encoder.layer.${layer_index}.attention.self.query.weight" },
      { name := cs!"bert.encoder.layer.${layer_index}.attention.self.query.bias" },
      { name := cs!"bert.encoder.layer.${layer_index}.attention.self.key.weight" },
      { name := cs!"bert.encoder.layer.${layer_index}.attention.self.key.bias" },
      { name := cs!"bert.encoder.layer.${layer_index}.attention.self.value.weight" },
      { name := cs!"bert.encoder.layer.${layer_index}.attention.self.value.bias" },
      { name := cs!"bert.encoder.layer.${layer_index}.attention.output.dense.weight" },
      { name := cs!"bert.encoder.layer.${layer_index}.attention.output.dense.bias" },
      { name := cs!"bert.encoder.layer.${layer_index}.attention.output.LayerNorm.bias", aliases := some [cs!"bert.encoder.layer.${layer_index}.attention.output.LayerNorm.beta"] },
      { name := cs!"bert.encoder.layer.${layer_index}.attention.output.LayerNorm.weight", aliases := some [cs!"bert.encoder.layer.${layer_index}.attention.output.LayerNorm.gamma"] },
      { name := cs!"bert.encoder.layer.${layer_index}.intermediate.dense.weight" },
      { name := cs!"bert.encoder.layer.${layer_index}.intermediate.dense.bias" },
      { name := cs!"bert.encoder.layer.${layer_index}.output.dense.weight" },
      { name := cs!"bert.encoder.layer.${layer_index}.output.dense.bias" },
      { name := cs!"bert.encoder.layer.${layer_index}.output.LayerNorm.bias", aliases := some [cs!"bert.encoder.layer.${layer_index}.output.LayerNorm.beta"] },
      { name := cs!"bert.encoder.layer.${layer_index}.output.LayerNorm.weight", aliases := some [cs!"bert.encoder.layer.${layer_index}.output.LayerNorm.gamma"] }]
    post := [{ name := cs!"bert.pooler.dense.weight" },
      { name := cs!"bert.pooler.dense.bias" },
      { name := cs!"cls.predictions.bias" },
      { name := cs!"cls.predictions.decoder.weight", isEmbed := true, optional := true, tiedNames := some [cs!"bert.embeddings.word_embeddings.weight"] }] }]

/-- `_data/architectures/bert-sequence-classification.json` (whole file). -/
def bert_sequence_classification : List Module := [
  { pre := [{ name := cs!"bert.embeddings.position_embeddings.weight" },
      { name := cs!"bert.embeddings.token_type_embeddings.weight" },
      { name := cs!"bert.embeddings.word_embeddings.weight", isEmbed := true },
      { name := cs!"bert.embeddings.LayerNorm.bias", aliases := some [cs!"bert.embeddings.LayerNorm.beta"] },
      { name := cs!"bert.embeddings.LayerNorm.weight", aliases := some [cs!"bert.embeddings.LayerNorm.gamma"] },
      { name := cs!"bert.embeddings.position_ids", optional := true, forceDtype := some cs!"int64" }]
    layers := [{ name := cs!"bert.encoder.layer.${layer_index}.attention.self.query.weight" },
      { name := cs!"bert.encoder.layer.${layer_index}.attention.self.query.bias" },
      { name := cs!"bert.encoder.layer.${layer_index}.attention.self.key.weight" },
      { name := cs!"bert.encoder.layer.${layer_index}.attention.self.key.bias" },
      { name := cs!"bert.encoder.layer.${layer_index}.attention.self.value.weight" },
      { name := cs!"bert.encoder.layer.${layer_index}.attention.self.value.bias" },
      { name := cs!"bert.encoder.layer.${layer_index}.attention.output.dense.weight" },
      { name := cs!"bert.encoder.layer.${layer_index}.attention.output.dense.bias" },
      { name := cs!"bert.encoder.layer.${layer_index}.attention.output.LayerNorm.bias", aliases := some [cs!"bert.encoder.layer.${layer_index}.attention.output.LayerNorm.beta"] },
      { name := cs!"bert.encoder.layer.${layer_index}.attention.output.LayerNorm.weight", aliases := some [cs!"bert.encoder.layer.${layer_index}.attention.output.LayerNorm.gamma"] },
      { name := cs!"bert.encoder.layer.${layer_index}.intermediate.dense.weight" },
      { name := cs!"bert.encoder.layer.${layer_index}.intermediate.dense.bias" },
      { name := cs!"bert.encoder.layer.${layer_index}.output.dense.weight" },
      { name := cs!"bert.encoder.layer.${layer_index}.output.dense.bias" },
      { name := cs!"bert.encoder.layer.${layer_index}.output.LayerNorm.bias", aliases := some [cs!"bert.encoder.layer.${layer_index}.output.LayerNorm.beta"] },
      { name := cs!"bert.encoder.layer.${layer_index}.output.LayerNorm.weight", aliases := some [cs!"bert.encoder.layer.${layer_index}.output.LayerNorm.gamma"] }]
    post := [{ name := cs!"bert.pooler.dense.weight", optional := true },
      { name := cs!"bert.pooler.dense.bias", optional := true },
      { name := cs!"classifier.bias" },
      { name := cs!"classifier.weight" }] }]

/-- `_data/architectures/bert.json` (whole file). -/
def bert : List Module := [
  { pre := [{ name := cs!"embeddings.position_embeddings.weight", aliases := some [cs!"bert.embeddings.position_embeddings.weight"] },
      { name := cs!"embeddings.token_type_embeddings.weight", aliases := some [cs!"bert.embeddings.token_type_embeddings.weight"] },
      { name := cs!"embeddings.word_embeddings.weight", isEmbed := true, aliases := some [cs!"bert.embeddings.word_embeddings.weight"] },
      { name := cs!"embeddings.LayerNorm.bias", aliases := some [cs!"embeddings.LayerNorm.beta", cs!"bert.embeddings.LayerNorm.bias", cs!"bert.embeddings.LayerNorm.beta"] },
      { name := cs!"embeddings.LayerNorm.weight", aliases := some [cs!"embeddings.LayerNorm.gamma", cs!"bert.embeddings.LayerNorm.weight", cs!"bert.embeddings.LayerNorm.gamma", cs!"bert.embeddings.LayerNorm.weight"] },
      { name := cs!"embeddings.position_ids", optional := true, aliases := some [cs!"bert.embeddings.position_ids"], forceDtype := some cs!"int64" }]
    layers := [{ name := cs!"encoder.layer.${layer_index}.attention.self.query.weight", aliases := some [cs!"bert.encoder.layer.${layer_index}.attention.self.query.weight"] },
      { name := cs!"encoder.layer.${layer_index}.attention.self.query.bias", aliases := some [cs!"bert.encoder.layer.${layer_index}.attention.self.query.bias"] },
      { name := cs!"encoder.layer.${layer_index}.attention.self.key.weight", aliases := some [cs!"bert.encoder.layer.${layer_index}.attention.self.key.weight"] },
      { name := cs!"encoder.layer.${layer_index}.attention.self.key.bias", aliases := some [cs!"bert.encoder.layer.${layer_index}.attention.self.key.bias"] },
      { name := cs!"encoder.layer.${layer_index}.attention.self.value.weight", aliases := some [cs!"bert.encoder.layer.${layer_index}.attention.self.value.weight"] },
      { name := cs!"encoder.layer.${layer_index}.attention.self.value.bias", aliases := some [cs!"bert.encoder.layer.${layer_index}.attention.self.value.bias"] },
      { name := cs!"encoder.layer.${layer_index}.attention.output.dense.weight", aliases := some [cs!"bert.encoder.layer.${layer_index}.attention.output.dense.weight"] },
      { name := cs!"encoder.layer.${layer_index}.attention.output.dense.bias", aliases := some [cs!"bert.encoder.layer.${layer_index}.attention.output.dense.bias"] },
      { name := cs!"encoder.layer.${layer_index}.attention.output.LayerNorm.bias", aliases := some [cs!"encoder.layer.${layer_index}.attention.output.LayerNorm.beta", cs!"bert.encoder.layer.${layer_index}.attention.output.LayerNorm.bias", cs!"bert.encoder.layer.${layer_index}.attention.output.LayerNorm.beta"] },
      { name := cs!"encoder.layer.${layer_index}.attention.output.LayerNorm.weight", aliases := some [cs!"encoder.layer.${layer_index}.attention.output.LayerNorm.gamma", cs!"bert.encoder.layer.${layer_index}.attention.output.LayerNorm.weight", cs!"bert.encoder.layer.${layer_index}.attention.output.LayerNorm.gamma"] },
      { name := cs!"encoder.layer.${layer_index}.intermediate.dense.weight", aliases := some [cs!"bert.encoder.layer.${layer_index}.intermediate.dense.weight"] },
      { name := cs!"encoder.layer.${layer_index}.intermediate.dense.bias", aliases := some [cs!"bert.encoder.layer.${layer_index}.intermediate.dense.bias"] },
      { name := cs!"encoder.layer.${layer_index}.output.dense.weight", aliases := some [cs!"bert.encoder.layer.${layer_index}.output.dense.weight"] },
      { name := cs!"encoder.layer.${layer_index}.output.dense.bias", aliases := some [cs!"bert.encoder.layer.${layer_index}.output.dense.bias"] },
      { name := cs!"encoder.layer.${layer_index}.output.LayerNorm.bias", aliases := some [cs!"encoder.layer.${layer_index}.output.LayerNorm.beta", cs!"bert.encoder.layer.${layer_index}.output.LayerNorm.bias", cs!"bert.encoder.layer.${layer_index}.output.LayerNorm.beta"] },
      { name := cs!"encoder.layer.${layer_index}.output.LayerNorm.weight", aliases := some [cs!"encoder.layer.${layer_index}.output.LayerNorm.gamma", cs!"bert.encoder.layer.${layer_index}.output.LayerNorm.weight", cs!"bert.encoder.layer.${layer_index}.output.LayerNorm.gamma"] }]
    post := [{ name := cs!"pooler.dense.weight", aliases := some [cs!"bert.pooler.dense.weight"] },
      { name := cs!"pooler.dense.bias", aliases := some [cs!"bert.pooler.dense.bias"] }] }]

/-- `_data/architectures/chatglm.json` (whole file). -/
def chatglm : List Module := [
  { pre := [{ name := cs!"transformer.embedding.word_embeddings.weight", isEmbed := true },
      { name := cs!"transformer.rotary_pos_emb.inv_freq" }]
    layers := [{ name := cs!"transformer.encoder.layers.${layer_index}.input_layernorm.weight" },
      { name := cs!"transformer.encoder.layers.${layer_index}.mlp.dense_4h_to_h.weight" },
      { name := cs!"transformer.encoder.layers.${layer_index}.mlp.dense_h_to_4h.weight" },
      { name := cs!"transformer.encoder.layers.${layer_index}.post_attention_layernorm.weight" },
      { name := cs!"transformer.encoder.layers.${layer_index}.self_attention.dense.weight" },
      { name := cs!"transformer.encoder.layers.${layer_index}.self_attention.query_key_value.bias" },
      { name := cs!"transformer.encoder.layers.${layer_index}.self_attention.query_key_value.weight" }]
    post := [{ name := cs!"transformer.encoder.final_layernorm.weight" },
      { name := cs!"transformer.output_layer.weight", isEmbed := true }] }]

/-- `_data/architectures/cohere.json` (whole file). -/
def cohere : List Module := [
  { pre := [{ name := cs!"model.embed_tokens.weight", isEmbed := true }]
    layers := [{ name := cs!"model.layers.${layer_index}.input_layernorm.weight" },
      { name := cs!"model.layers.${layer_index}.mlp.down_proj.weight" },
      { name := cs!"model.layers.${layer_index}.mlp.gate_proj.weight" },
      { name := cs!"model.layers.${layer_index}.mlp.up_proj.weight" },
      { name := cs!"model.layers.${layer_index}.self_attn.q_norm.weight" },
      { name := cs!"model.layers.${layer_index}.self_attn.q_proj.weight" },
      { name := cs!"model.layers.${layer_index}.self_attn.k_norm.weight" },
      { name := cs!"model.layers.${layer_index}.self_attn.k_proj.weight" },
      { name := cs!"model.layers.${layer_index}.self_attn.v_proj.weight" },
      { name := cs!"model.layers.${layer_index}.self_attn.o_proj.weight" }]
    post := [{ name := cs!"model.norm.weight" },
      { name := cs!"lm_head.weight", isEmbed := true, optional := true }] }]

/-- `_data/architectures/cohere2.json` (whole file). -/
def cohere2 : List Module := [
  { pre := [{ name := cs!"model.embed_tokens.weight", isEmbed := true }]
    layers := [{ name := cs!"model.layers.${layer_index}.self_attn.q_proj.weight" },
      { name := cs!"model.layers.${layer_index}.self_attn.k_proj.weight" },
      { name := cs!"model.layers.${layer_index}.self_attn.v_proj.weight" },
      { name := cs!"model.layers.${layer_index}.self_attn.o_proj.weight" },
      { name := cs!"model.layers.${layer_index}.mlp.gate_proj.weight" },
      { name := cs!"model.layers.${layer_index}.mlp.up_proj.weight" },
      { name := cs!"model.layers.${layer_index}.mlp.down_proj.weight" },
      { name := cs!"model.layers.${layer_index}.input_layernorm.weight" }]
    post := [{ name := cs!"model.norm.weight" },
      { name := cs!"lm_head.weight", isEmbed := true, optional := true }] }]

/-- `_data/architectures/distilbert-masked-lm.json` (whole file). -/
def distilbert_masked_lm : List Module := [
  { pre := [{ name := cs!"distilbert.embeddings.position_embeddings.weight" },
      { name := cs!"distilbert.embeddings.word_embeddings.weight", isEmbed := true },
      { name := cs!"distilbert.embeddings.LayerNorm.bias", aliases := some [cs!"distilbert.embeddings.LayerNorm.beta"] },
      { name := cs!"distilbert.embeddings.LayerNorm.weight", aliases := some [cs!"distilbert.embeddings.LayerNorm.gamma"] }]
    layers := [{ name := cs!"distilbert.transformer.layer.${layer_index}.attention.k_lin.weight" },
      { name := cs!"distilbert.transformer.layer.${layer_index}.attention.k_lin.bias" },
      { name := cs!"distilbert.transformer.layer.${layer_index}.attention.q_lin.weight" },
      { name := cs!"distilbert.transformer.layer.${layer_index}.attention.q_lin.bias" },
      { name := cs!"distilbert.transformer.layer.${layer_index}.attention.v_lin.weight" },
      { name := cs!"distilbert.transformer.layer.${layer_index}.attention.v_lin.bias" },
      { name := cs!"distilbert.transformer.layer.${layer_index}.attention.out_lin.weight" },
      { name := cs!"distilbert.transformer.layer.${layer_index}.attention.out_lin.bias" },
      { name := cs!"distilbert.transformer.layer.${layer_index}.sa_layer_norm.bias" },
      { name := cs!"distilbert.transformer.layer.${layer_index}.sa_layer_norm.weight" },
      { name := cs!"distilbert.transformer.layer.${layer_index}.ffn.lin1.weight" },
      { name := cs!"distilbert.transformer.layer.${layer_index}.ffn.lin1.bias" },
      { name := cs!"distilbert.transformer.layer.${layer_index}.ffn.lin2.weight" },
      { name := cs!"distilbert.transformer.layer.${layer_index}.ffn.lin2.bias" },
      { name := cs!"distilbert.transformer.layer.${layer_index}.output_layer_norm.bias" },
      { name := cs!"distilbert.transformer.layer.${layer_index}.output_layer_norm.weight" }]
    post := [{ name := cs!"vocab_transform.weight" },
      { name := cs!"vocab_transform.bias" },
      { name := cs!"vocab_layer_norm.bias" },
      { name := cs!"vocab_layer_norm.weight" },
      { name := cs!"vocab_projector.weight", isEmbed := true, optional := true, tiedNames := some [cs!"distilbert.embeddings.word_embeddings.weight"] },
      { name := cs!"vocab_projector.bias" }] }]

/-- `_data/architectures/distilbert-sequence-classification.json` (whole file). -/
def distilbert_sequence_classification : List Module := [
  { pre := [{ name := cs!"distilbert.embeddings.position_embeddings.weight" },
      { name := cs!"distilbert.embeddings.word_embeddings.weight", isEmbed := true },
      { name := cs!"distilbert.embeddings.LayerNorm.bias", aliases := some [cs!"distilbert.embeddings.LayerNorm.beta"] },
      { name := cs!"distilbert.embeddings.LayerNorm.weight", aliases := some [cs!"distilbert.embeddings.LayerNorm.gamma"] }]
    layers := [{ name := cs!"distilbert.transformer.layer.${layer_index}.attention.k_lin.weight" },
      { name := cs!"distilbert.transformer.layer.${layer_index}.attention.k_lin.bias" },
      { name := cs!"distilbert.transformer.layer.${layer_index}.attention.q_lin.weight" },
      { name := cs!"distilbert.transformer.layer.${layer_index}.attention.q_lin.bias" },
      { name := cs!"distilbert.transformer.layer.${layer_index}.attention.v_lin.weight" },
      { name := cs!"distilbert.transformer.layer.${layer_index}.attention.v_lin.bias" },
      { name := cs!"distilbert.transformer.layer.${layer_index}.attention.out_lin.weight" },
      { name := cs!"distilbert.transformer.layer.${layer_index}.attention.out_lin.bias" },
      { name := cs!"distilbert.transformer.layer.${layer_index}.sa_layer_norm.bias" },
      { name := cs!"distilbert.transformer.layer.${layer_index}.sa_layer_norm.weight" },
      { name := cs!"distilbert.transformer.layer.${layer_index}.ffn.lin1.weight" },
      { name := cs!"distilbert.transformer.layer.${layer_index}.ffn.lin1.bias" },
      { name := cs!"distilbert.transformer.layer.${layer_index}.ffn.lin2.weight" },
      { name := cs!"distilbert.transformer.layer.${layer_index}.ffn.lin2.bias" },
      { name := cs!"distilbert.transformer.layer.${layer_index}.output_layer_norm.bias" },
      { name := cs!"distilbert.transformer.layer.${layer_index}.output_layer_norm.weight" }]
    post := [{ name := cs!"classifier.bias" },
      { name := cs!"classifier.weight" },
      { name := cs!"pre_classifier.bias" },
      { name := cs!"pre_classifier.weight" }] }]

/-- `_data/architectures/distilbert-token-classification.json` (whole file). -/
def distilbert_token_classification : List Module := [
  { pre := [{ name := cs!"distilbert.embeddings.position_embeddings.weight" },
      { name := cs!"distilbert.embeddings.word_embeddings.weight", isEmbed := true },
      { name := cs!"distilbert.embeddings.LayerNorm.bias", aliases := some [cs!"distilbert.embeddings.LayerNorm.beta"] },
      { name := cs!"distilbert.embeddings.LayerNorm.weight", aliases := some [cs!"distilbert.embeddings.LayerNorm.gamma"] }]
    layers := [{ name := cs!"distilbert.transformer.layer.${layer_index}.attention.k_lin.weight" },
      { name := cs!"distilbert.transformer.layer.${layer_index}.attention.k_lin.bias" },
      { name := cs!"distilbert.transformer.layer.${layer_index}.attention.q_lin.weight" },
      { name := cs!"distilbert.transformer.layer.${layer_index}.attention.q_lin.bias" },
      { name := cs!"distilbert.transformer.layer.${layer_index}.attention.v_lin.weight" },
      { name := cs!"distilbert.transformer.layer.${layer_index}.attention.v_lin.bias" },
      { name := cs!"distilbert.transformer.layer.${layer_index}.attention.out_lin.weight" },
      { name := cs!"distilbert.transformer.layer.${layer_index}.attention.out_lin.bias" },
      { name := cs!"distilbert.transformer.layer.${layer_index}.sa_layer_norm.bias" },
      { name := cs!"distilbert.transformer.layer.${layer_index}.sa_layer_norm.weight" },
      { name := cs!"distilbert.transformer.layer.${layer_index}.ffn.lin1.weight" },
      { name := cs!"distilbert.transformer.layer.${layer_index}.ffn.lin1.bias" },
      { name := cs!"distilbert.transformer.layer.${layer_index}.ffn.lin2.weight" },
      { name := cs!"distilbert.transformer.layer.${layer_index}.ffn.lin2.bias" },
      { name := cs!"distilbert.transformer.layer.${layer_index}.output_layer_norm.bias" },
      { name := cs!"distilbert.transformer.layer.${layer_index}.output_layer_norm.weight" }]
    post := [{ name := cs!"classifier.bias" },
      { name := cs!"classifier.weight" }] }]

/-- `_data/architectures/distilbert.json` (whole file). -/
def distilbert : List Module := [
  { pre := [{ name := cs!"distilbert.embeddings.position_embeddings.weight" },
      { name := cs!"distilbert.embeddings.word_embeddings.weight", isEmbed := true },
      { name := cs!"distilbert.embeddings.LayerNorm.bias", aliases := some [cs!"distilbert.embeddings.LayerNorm.beta"] },
      { name := cs!"distilbert.embeddings.LayerNorm.weight", aliases := some [cs!"distilbert.embeddings.LayerNorm.gamma"] }]
    layers := [{ name := cs!"distilbert.transformer.layer.${layer_index}.attention.k_lin.weight" },
      { name := cs!"distilbert.transformer.layer.${layer_index}.attention.k_lin.bias" },
      { name := cs!"distilbert.transformer.layer.${layer_index}.attention.q_lin.weight" },
      { name := cs!"distilbert.transformer.layer.${layer_index}.attention.q_lin.bias" },
      { name := cs!"distilbert.transformer.layer.${layer_index}.attention.v_lin.weight" },
      { name := cs!"distilbert.transformer.layer.${layer_index}.attention.v_lin.bias" },
      { name := cs!"distilbert.transformer.layer.${layer_index}.attention.out_lin.weight" },
      { name := cs!"distilbert.transformer.layer.${layer_index}.attention.out_lin.bias" },
      { name := cs!"distilbert.transformer.layer.${layer_index}.sa_layer_norm.bias" },
      { name := cs!"distilbert.transformer.layer.${layer_index}.sa_layer_norm.weight" },
      { name := cs!"distilbert.transformer.layer.${layer_index}.ffn.lin1.weight" },
      { name := cs!"distilbert.transformer.layer.${layer_index}.ffn.lin1.bias" },
      { name := cs!"distilbert.transformer.layer.${layer_index}.ffn.lin2.weight" },
      { name := cs!"distilbert.transformer.layer.${layer_index}.ffn.lin2.bias" },
      { name := cs!"distilbert.transformer.layer.${layer_index}.output_layer_norm.bias" },
      { name := cs!"distilbert.transformer.layer.${layer_index}.output_layer_norm.weight" }]
    post := [] }]

/-- `_data/architectures/exaone.json` (whole file). -/
def exaone : List Module := [
  { pre := [{ name := cs!"transformer.wte.weight", isEmbed := true }]
    layers := [{ name := cs!"transformer.h.${layer_index}.ln_1.weight" },
      { name := cs!"transformer.h.${layer_index}.attn.attention.q_proj.weight" },
      { name := cs!"transformer.h.${layer_index}.attn.attention.k_proj.weight" },
      { name := cs!"transformer.h.${layer_index}.attn.attention.v_proj.weight" },
      { name := cs!"transformer.h.${layer_index}.attn.attention.out_proj.weight" },
      { name := cs!"transformer.h.${layer_index}.ln_2.weight" },
      { name := cs!"transformer.h.${layer_index}.mlp.c_fc_0.weight" },
      { name := cs!"transformer.h.${layer_index}.mlp.c_fc_1.weight" },
      { name := cs!"transformer.h.${layer_index}.mlp.c_proj.weight" }]
    post := [{ name := cs!"transformer.ln_f.weight" },
      { name := cs!"lm_head.weight", isEmbed := true }] }]

/-- `_data/architectures/falcon.json` (whole file). -/
def falcon : List Module := [
  { pre := [{ name := cs!"transformer.word_embeddings.weight", isEmbed := true }]
    layers := [{ name := cs!"transformer.h.${layer_index}.ln_attn.bias" },
      { name := cs!"transformer.h.${layer_index}.ln_attn.weight" },
      { name := cs!"transformer.h.${layer_index}.ln_mlp.bias" },
      { name := cs!"transformer.h.${layer_index}.ln_mlp.weight" },
      { name := cs!"transformer.h.${layer_index}.mlp.dense_4h_to_h.weight" },
      { name := cs!"transformer.h.${layer_index}.mlp.dense_h_to_4h.weight" },
      { name := cs!"transformer.h.${layer_index}.self_attention.dense.weight" },
      { name := cs!"transformer.h.${layer_index}.self_attention.query_key_value.weight" }]
    post := [{ name := cs!"transformer.ln_f.weight" },
      { name := cs!"transformer.ln_f.bias" },
      { name := cs!"lm_head.weight", isEmbed := true }] }]

/-- `_data/architectures/gemma.json` (whole file). -/
def gemma : List Module := [
  { pre := [{ name := cs!"model.embed_tokens.weight", isEmbed := true }]
    layers := [{ name := cs!"model.layers.${layer_index}.input_layernorm.weight" },
      { name := cs!"model.layers.${layer_index}.self_attn.q_proj.weight" },
      { name := cs!"model.layers.${layer_index}.self_attn.k_proj.weight" },
      { name := cs!"model.layers.${layer_index}.self_attn.v_proj.weight" },
      { name := cs!"model.layers.${layer_index}.self_attn.o_proj.weight" },
      { name := cs!"model.layers.${layer_index}.post_attention_layernorm.weight" },
      { name := cs!"model.layers.${layer_index}.mlp.up_proj.weight" },
      { name := cs!"model.layers.${layer_index}.mlp.gate_proj.weight" },
      { name := cs!"model.layers.${layer_index}.mlp.down_proj.weight" }]
    post := [{ name := cs!"model.norm.weight" }] }]

/-- `_data/architectures/gemma2.json` (whole file). -/
def gemma2 : List Module := [
  { pre := [{ name := cs!"model.embed_tokens.weight", isEmbed := true }]
    layers := [{ name := cs!"model.layers.${layer_index}.input_layernorm.weight" },
      { name := cs!"model.layers.${layer_index}.self_attn.q_proj.weight" },
      { name := cs!"model.layers.${layer_index}.self_attn.k_proj.weight" },
      { name := cs!"model.layers.${layer_index}.self_attn.v_proj.weight" },
      { name := cs!"model.layers.${layer_index}.self_attn.o_proj.weight" },
      { name := cs!"model.layers.${layer_index}.post_attention_layernorm.weight" },
      { name := cs!"model.layers.${layer_index}.pre_feedforward_layernorm.weight" },
      { name := cs!"model.layers.${layer_index}.mlp.up_proj.weight" },
      { name := cs!"model.layers.${layer_index}.mlp.gate_proj.weight" },
      { name := cs!"model.layers.${layer_index}.mlp.down_proj.weight" },
      { name := cs!"model.layers.${layer_index}.post_feedforward_layernorm.weight" }]
    post := [{ name := cs!"model.norm.weight" },
      { name := cs!"lm_head.weight", isEmbed := true, optional := true, tiedNames := some [cs!"model.embed_tokens.weight"] }] }]

/-- `_data/architectures/gemma3.json` (whole file). -/
def gemma3 : List Module := [
  { pre := [{ name := cs!"model.embed_tokens.weight", isEmbed := true }]
    layers := [{ name := cs!"model.layers.${layer_index}.input_layernorm.weight" },
      { name := cs!"model.layers.${layer_index}.self_attn.q_proj.weight" },
      { name := cs!"model.layers.${layer_index}.self_attn.q_norm.weight" },
      { name := cs!"model.layers.${layer_index}.self_attn.k_proj.weight" },
      { name := cs!"model.layers.${layer_index}.self_attn.k_norm.weight" },
      { name := cs!"model.layers.${layer_index}.self_attn.v_proj.weight" },
      { name := cs!"model.layers.${layer_index}.self_attn.o_proj.weight" },
      { name := cs!"model.layers.${layer_index}.post_attention_layernorm.weight" },
      { name := cs!"model.layers.${layer_index}.pre_feedforward_layernorm.weight" },
      { name := cs!"model.layers.${layer_index}.mlp.up_proj.weight" },
      { name := cs!"model.layers.${layer_index}.mlp.gate_proj.weight" },
      { name := cs!"model.layers.${layer_index}.mlp.down_proj.weight" },
      { name := cs!"model.layers.${layer_index}.post_feedforward_layernorm.weight" }]
    post := [{ name := cs!"model.norm.weight" },
      { name := cs!"lm_head.weight", isEmbed := true, optional := true, tiedNames := some [cs!"model.embed_tokens.weight"] }] }]

/-- `_data/architectures/gemma3vl.json` (whole file). -/
def gemma3vl : List Module := [
  { pre := [{ name := cs!"model.embed_tokens.weight", isEmbed := true }]
    layers := [{ name := cs!"model.layers.${layer_index}.input_layernorm.weight" },
      { name := cs!"model.layers.${layer_index}.self_attn.q_proj.weight" },
      { name := cs!"model.layers.${layer_index}.self_attn.q_norm.weight" },
      { name := cs!"model.layers.${layer_index}.self_attn.k_proj.weight" },
      { name := cs!"model.layers.${layer_index}.self_attn.k_norm.weight" },
      { name := cs!"model.layers.${layer_index}.self_attn.v_proj.weight" },
      { name := cs!"model.layers.${layer_index}.self_attn.o_proj.weight" },
      { name := cs!"model.layers.${layer_index}.post_attention_layernorm.weight" },
      { name := cs!"model.layers.${layer_index}.pre_feedforward_layernorm.weight" },
      { name := cs!"model.layers.${layer_index}.mlp.up_proj.weight" },
      { name := cs!"model.layers.${layer_index}.mlp.gate_proj.weight" },
      { name := cs!"model.layers.${layer_index}.mlp.down_proj.weight" },
      { name := cs!"model.layers.${layer_index}.post_feedforward_layernorm.weight" }]
    post := [{ name := cs!"model.norm.weight" },
      { name := cs!"lm_head.weight", isEmbed := true, optional := true, tiedNames := some [cs!"model.embed_tokens.weight"] }]
    weightPrefix := some cs!"language_model." },
  { pre := [{ name := cs!"mm_input_projection_weight" },
      { name := cs!"mm_soft_emb_norm.weight" }]
    layers := []
    post := []
    overrideNumLayers := some 0
    weightPrefix := some cs!"multi_modal_projector." },
  { pre := [{ name := cs!"embeddings.patch_embedding.bias" },
      { name := cs!"embeddings.patch_embedding.weight" },
      { name := cs!"embeddings.position_embedding.weight" }]
    layers := [{ name := cs!"encoder.layers.${layer_index}.layer_norm1.bias" },
      { name := cs!"encoder.layers.${layer_index}.layer_norm1.weight" },
      { name := cs!"encoder.layers.${layer_index}.layer_norm2.bias" },
      { name := cs!"encoder.layers.${layer_index}.layer_norm2.weight" },
      { name := cs!"encoder.layers.${layer_index}.mlp.fc1.bias" },
      { name := cs!"encoder.layers.${layer_index}.mlp.fc1.weight" },
      { name := cs!"encoder.layers.${layer_index}.mlp.fc2.bias" },
      { name := cs!"encoder.layers.${layer_index}.mlp.fc2.weight" },
      { name := cs!"encoder.layers.${layer_index}.self_attn.k_proj.bias" },
      { name := cs!"encoder.layers.${layer_index}.self_attn.k_proj.weight" },
      { name := cs!"encoder.layers.${layer_index}.self_attn.out_proj.bias" },
      { name := cs!"encoder.layers.${layer_index}.self_attn.out_proj.weight" },
      { name := cs!"encoder.layers.${layer_index}.self_attn.q_proj.bias" },
      { name := cs!"encoder.layers.${layer_index}.self_attn.q_proj.weight" },
      { name := cs!"encoder.layers.${layer_index}.self_attn.v_proj.bias" },
      { name := cs!"encoder.layers.${layer_index}.self_attn.v_proj.weight" }]
    post := [{ name := cs!"post_layernorm.bias" },
      { name := cs!"post_layernorm.weight" }]
    weightPrefix := some cs!"vision_tower.vision_model." }]

/-- `_data/architectures/glm4.json` (whole file). -/
def glm4 : List Module := [
  { pre := [{ name := cs!"model.embed_tokens.weight", isEmbed := true }]
    layers := [{ name := cs!"model.layers.${layer_index}.input_layernorm.weight" },
      { name := cs!"model.layers.${layer_index}.mlp.down_proj.weight" },
      { name := cs!"model.layers.${layer_index}.mlp.gate_up_proj.weight" },
      { name := cs!"model.layers.${layer_index}.post_attention_layernorm.weight" },
      { name := cs!"model.layers.${layer_index}.post_mlp_layernorm.weight" },
      { name := cs!"model.layers.${layer_index}.post_self_attn_layernorm.weight" },
      { name := cs!"model.layers.${layer_index}.self_attn.q_proj.weight" },
      { name := cs!"model.layers.${layer_index}.self_attn.q_proj.bias", optional := true },
      { name := cs!"model.layers.${layer_index}.self_attn.k_proj.weight" },
      { name := cs!"model.layers.${layer_index}.self_attn.k_proj.bias", optional := true },
      { name := cs!"model.layers.${layer_index}.self_attn.v_proj.weight" },
      { name := cs!"model.layers.${layer_index}.self_attn.v_proj.bias", optional := true },
      { name := cs!"model.layers.${layer_index}.self_attn.o_proj.weight" }]
    post := [{ name := cs!"model.norm.weight" },
      { name := cs!"lm_head.weight", isEmbed := true, optional := true, tiedNames := some [cs!"model.embed_tokens.weight"] }] }]

/-- `_data/architectures/glm4moe.json` (whole file). -/
def glm4moe : List Module := [
  { pre := [{ name := cs!"model.embed_tokens.weight", isEmbed := true }]
    layers := [{ name := cs!"model.layers.${layer_index}.input_layernorm.weight" },
      { name := cs!"model.layers.${layer_index}.mlp.down_proj.weight" },
      { name := cs!"model.layers.${layer_index}.mlp.gate_proj.weight" },
      { name := cs!"model.layers.${layer_index}.mlp.up_proj.weight" },
      { name := cs!"model.layers.${layer_index}.post_attention_layernorm.weight" },
      { name := cs!"model.layers.${layer_index}.self_attn.q_norm.weight", optional := true },
      { name := cs!"model.layers.${layer_index}.self_attn.k_norm.weight", optional := true },
      { name := cs!"model.layers.${layer_index}.self_attn.q_proj.weight" },
      { name := cs!"model.layers.${layer_index}.self_attn.q_proj.bias", optional := true },
      { name := cs!"model.layers.${layer_index}.self_attn.k_proj.weight" },
      { name := cs!"model.layers.${layer_index}.self_attn.k_proj.bias", optional := true },
      { name := cs!"model.layers.${layer_index}.self_attn.v_proj.weight" },
      { name := cs!"model.layers.${layer_index}.self_attn.v_proj.bias", optional := true },
      { name := cs!"model.layers.${layer_index}.self_attn.o_proj.weight" }]
    post := [{ name := cs!"model.norm.weight" },
      { name := cs!"lm_head.weight", isEmbed := true, optional := true, tiedNames := some [cs!"model.embed_tokens.weight"] }] }]

/-- `_data/architectures/gpt-neox.json` (whole file). -/
def gpt_neox : List Module := [
  { pre := [{ name := cs!"gpt_neox.embed_in.weight", isEmbed := true }]
    layers := [{ name := cs!"gpt_neox.layers.${layer_index}.attention.dense.weight" },
      { name := cs!"gpt_neox.layers.${layer_index}.attention.dense.bias" },
      { name := cs!"gpt_neox.layers.${layer_index}.attention.query_key_value.weight" },
      { name := cs!"gpt_neox.layers.${layer_index}.attention.query_key_value.bias" },
      { name := cs!"gpt_neox.layers.${layer_index}.input_layernorm.weight" },
      { name := cs!"gpt_neox.layers.${layer_index}.input_layernorm.bias" },
      { name := cs!"gpt_neox.layers.${layer_index}.mlp.dense_4h_to_h.weight" },
      { name := cs!"gpt_neox.layers.${layer_index}.mlp.dense_4h_to_h.bias" },
      { name := cs!"gpt_neox.layers.${layer_index}.mlp.dense_h_to_4h.weight" },
      { name := cs!"gpt_neox.layers.${layer_index}.mlp.dense_h_to_4h.bias" },
      { name := cs!"gpt_neox.layers.${layer_index}.post_attention_layernorm.weight" },
      { name := cs!"gpt_neox.layers.${layer_index}.post_attention_layernorm.bias" },
      { name := cs!"gpt_neox.layers.${layer_index}.attention.bias" },
      { name := cs!"gpt_neox.layers.${layer_index}.attention.masked_bias" },
      { name := cs!"gpt_neox.layers.${layer_index}.attention.rotary_emb.inv_freq" }]
    post := [{ name := cs!"gpt_neox.final_layer_norm.bias" },
      { name := cs!"gpt_neox.final_layer_norm.weight" },
      { name := cs!"embed_out.weight", isEmbed := true }] }]

/-- `_data/architectures/gpt2-sequence-classification.json` (whole file). -/
def gpt2_sequence_classification : List Module := [
  { pre := [{ name := cs!"transformer.wte.weight" },
      { name := cs!"transformer.wpe.weight" }]
    layers := [{ name := cs!"transformer.h.${layer_index}.attn.c_attn.weight" },
      { name := cs!"transformer.h.${layer_index}.attn.c_attn.bias" },
      { name := cs!"transformer.h.${layer_index}.attn.c_proj.weight" },
      { name := cs!"transformer.h.${layer_index}.attn.c_proj.bias" },
      { name := cs!"transformer.h.${layer_index}.ln_1.weight" },
      { name := cs!"transformer.h.${layer_index}.ln_1.bias" },
      { name := cs!"transformer.h.${layer_index}.ln_2.weight" },
      { name := cs!"transformer.h.${layer_index}.ln_2.bias" },
      { name := cs!"transformer.h.${layer_index}.mlp.c_proj.weight" },
      { name := cs!"transformer.h.${layer_index}.mlp.c_proj.bias" },
      { name := cs!"transformer.h.${layer_index}.mlp.c_fc.weight" },
      { name := cs!"transformer.h.${layer_index}.mlp.c_fc.bias" }]
    post := [{ name := cs!"transformer.ln_f.weight" },
      { name := cs!"transformer.ln_f.bias" },
      { name := cs!"score.weight" }] }]

/-- `_data/architectures/gpt2.json` (whole file). -/
def gpt2 : List Module := [
  { pre := [{ name := cs!"transformer.wte.weight", isEmbed := true, aliases := some [cs!"wte.weight"] },
      { name := cs!"transformer.wpe.weight", aliases := some [cs!"wpe.weight"] }]
    layers := [{ name := cs!"transformer.h.${layer_index}.attn.c_attn.weight", aliases := some [cs!"h.${layer_index}.attn.c_attn.weight"] },
      { name := cs!"transformer.h.${layer_index}.attn.c_attn.bias", aliases := some [cs!"h.${layer_index}.attn.c_attn.bias"] },
      { name := cs!"transformer.h.${layer_index}.attn.c_proj.weight", aliases := some [cs!"h.${layer_index}.attn.c_proj.weight"] },
      { name := cs!"transformer.h.${layer_index}.attn.c_proj.bias", aliases := some [cs!"h.${layer_index}.attn.c_proj.bias"] },
      { name := cs!"transformer.h.${layer_index}.ln_1.weight", aliases := some [cs!"h.${layer_index}.ln_1.weight"] },
      { name := cs!"transformer.h.${layer_index}.ln_1.bias", aliases := some [cs!"h.${layer_index}.ln_1.bias"] },
      { name := cs!"transformer.h.${layer_index}.ln_2.weight", aliases := some [cs!"h.${layer_index}.ln_2.weight"] },
      { name := cs!"transformer.h.${layer_index}.ln_2.bias", aliases := some [cs!"h.${layer_index}.ln_2.bias"] },
      { name := cs!"transformer.h.${layer_index}.mlp.c_proj.weight", aliases := some [cs!"h.${layer_index}.mlp.c_proj.weight"] },
      { name := cs!"transformer.h.${layer_index}.mlp.c_proj.bias", aliases := some [cs!"h.${layer_index}.mlp.c_proj.bias"] },
      { name := cs!"transformer.h.${layer_index}.mlp.c_fc.weight", aliases := some [cs!"h.${layer_index}.mlp.c_fc.weight"] },
      { name := cs!"transformer.h.${layer_index}.mlp.c_fc.bias", aliases := some [cs!"h.${layer_index}.mlp.c_fc.bias"] }]
    post := [{ name := cs!"transformer.ln_f.weight", aliases := some [cs!"ln_f.weight"] },
      { name := cs!"transformer.ln_f.bias", aliases := some [cs!"ln_f.bias"] },
      { name := cs!"lm_head.weight", isEmbed := true, optional := true, tiedNames := some [cs!"transformer.wte.weight", cs!"wte.weight"] }] }]

/-- `_data/architectures/gptbigcode.json` (whole file). -/
def gptbigcode : List Module := [
  { pre := [{ name := cs!"transformer.wte.weight", isEmbed := true },
      { name := cs!"transformer.wpe.weight" }]
    layers := [{ name := cs!"transformer.h.${layer_index}.attn.c_attn.weight" },
      { name := cs!"transformer.h.${layer_index}.attn.c_attn.bias" },
      { name := cs!"transformer.h.${layer_index}.attn.c_proj.weight" },
      { name := cs!"transformer.h.${layer_index}.attn.c_proj.bias" },
      { name := cs!"transformer.h.${layer_index}.ln_1.weight" },
      { name := cs!"transformer.h.${layer_index}.ln_1.bias" },
      { name := cs!"transformer.h.${layer_index}.ln_2.weight" },
      { name := cs!"transformer.h.${layer_index}.ln_2.bias" },
      { name := cs!"transformer.h.${layer_index}.mlp.c_proj.weight" },
      { name := cs!"transformer.h.${layer_index}.mlp.c_proj.bias" },
      { name := cs!"transformer.h.${layer_index}.mlp.c_fc.weight" },
      { name := cs!"transformer.h.${layer_index}.mlp.c_fc.bias" }]
    post := [{ name := cs!"transformer.ln_f.weight" },
      { name := cs!"transformer.ln_f.bias" },
      { name := cs!"lm_head.weight", isEmbed := true, optional := true, tiedNames := some [cs!"transformer.wte.weight"] }] }]

/-- `_data/architectures/granite.json` (whole file). -/
def granite : List Module := [
  { pre := [{ name := cs!"model.embed_tokens.weight", isEmbed := true }]
    layers := [{ name := cs!"model.layers.${layer_index}.input_layernorm.weight" },
      { name := cs!"model.layers.${layer_index}.self_attn.q_proj.weight" },
      { name := cs!"model.layers.${layer_index}.self_attn.q_proj.bias", optional := true },
      { name := cs!"model.layers.${layer_index}.self_attn.k_proj.weight" },
      { name := cs!"model.layers.${layer_index}.self_attn.k_proj.bias", optional := true },
      { name := cs!"model.layers.${layer_index}.self_attn.v_proj.weight" },
      { name := cs!"model.layers.${layer_index}.self_attn.v_proj.bias", optional := true },
      { name := cs!"model.layers.${layer_index}.self_attn.o_proj.weight" },
      { name := cs!"model.layers.${layer_index}.self_attn.o_proj.bias", optional := true },
      { name := cs!"model.layers.${layer_index}.post_attention_layernorm.weight" },
      { name := cs!"model.layers.${layer_index}.mlp.gate_proj.weight" },
      { name := cs!"model.layers.${layer_index}.mlp.gate_proj.bias", optional := true },
      { name := cs!"model.layers.${layer_index}.mlp.up_proj.weight" },
      { name := cs!"model.layers.${layer_index}.mlp.up_proj.bias", optional := true },
      { name := cs!"model.layers.${layer_index}.mlp.down_proj.weight" },
      { name := cs!"model.layers.${layer_index}.mlp.down_proj.bias", optional := true }]
    post := [{ name := cs!"model.norm.weight" },
      { name := cs!"lm_head.weight", isEmbed := true, optional := true, tiedNames := some [cs!"model.embed_tokens.weight"] }] }]

/-- `_data/architectures/granite4moehybrid.json` (whole file). -/
def granite4moehybrid : List Module := [
  { pre := [{ name := cs!"model.embed_tokens.weight", isEmbed := true }]
    layers := [{ name := cs!"model.layers.${layer_index}.input_layernorm.weight" },
      { name := cs!"model.layers.${layer_index}.shared_mlp.input_linear.weight" },
      { name := cs!"model.layers.${layer_index}.shared_mlp.output_linear.weight" },
      { name := cs!"model.layers.${layer_index}.block_sparse_moe.input_linear.weight" },
      { name := cs!"model.layers.${layer_index}.block_sparse_moe.router.layer.weight" },
      { name := cs!"model.layers.${layer_index}.block_sparse_moe.output_linear.weight" },
      { name := cs!"model.layers.${layer_index}.post_attention_layernorm.weight" },
      { name := cs!"model.layers.${layer_index}.self_attn.k_proj.weight", optional := true },
      { name := cs!"model.layers.${layer_index}.self_attn.o_proj.weight", optional := true },
      { name := cs!"model.layers.${layer_index}.self_attn.q_proj.weight", optional := true },
      { name := cs!"model.layers.${layer_index}.self_attn.v_proj.weight", optional := true },
      { name := cs!"model.layers.${layer_index}.mamba.A_log", optional := true },
      { name := cs!"model.layers.${layer_index}.mamba.conv1d.bias", optional := true },
      { name := cs!"model.layers.${layer_index}.mamba.conv1d.weight", optional := true },
      { name := cs!"model.layers.${layer_index}.mamba.D", optional := true },
      { name := cs!"model.layers.${layer_index}.mamba.dt_bias", optional := true },
      { name := cs!"model.layers.${layer_index}.mamba.in_proj.weight", optional := true },
      { name := cs!"model.layers.${layer_index}.mamba.norm.weight", optional := true },
      { name := cs!"model.layers.${layer_index}.mamba.out_proj.weight", optional := true }]
    post := [{ name := cs!"model.norm.weight" },
      { name := cs!"lm_head.weight", isEmbed := true, optional := true, tiedNames := some [cs!"model.embed_tokens.weight"] }] }]

/-- `_data/architectures/internlm2.json` (whole file). -/
def internlm2 : List Module := [
  { pre := [{ name := cs!"model.tok_embeddings.weight", isEmbed := true }]
    layers := [{ name := cs!"model.layers.${layer_index}.attention_norm.weight" },
      { name := cs!"model.layers.${layer_index}.ffn_norm.weight" },
      { name := cs!"model.layers.${layer_index}.attention.wqkv.weight" },
      { name := cs!"model.layers.${layer_index}.attention.wo.weight" },
      { name := cs!"model.layers.${layer_index}.feed_forward.w1.weight" },
      { name := cs!"model.layers.${layer_index}.feed_forward.w2.weight" },
      { name := cs!"model.layers.${layer_index}.feed_forward.w3.weight" }]
    post := [{ name := cs!"model.norm.weight" },
      { name := cs!"output.weight", isEmbed := true, optional := true, tiedNames := some [cs!"model.tok_embeddings.weight"] }] }]

/-- `_data/architectures/jais.json` (whole file). -/
def jais : List Module := [
  { pre := [{ name := cs!"transformer.wte.weight", isEmbed := true },
      { name := cs!"transformer.relative_pe.slopes" }]
    layers := [{ name := cs!"transformer.h.${layer_index}.attn.c_attn.weight" },
      { name := cs!"transformer.h.${layer_index}.attn.c_attn.bias" },
      { name := cs!"transformer.h.${layer_index}.attn.c_proj.weight" },
      { name := cs!"transformer.h.${layer_index}.attn.c_proj.bias" },
      { name := cs!"transformer.h.${layer_index}.ln_1.weight" },
      { name := cs!"transformer.h.${layer_index}.ln_1.bias" },
      { name := cs!"transformer.h.${layer_index}.ln_2.weight" },
      { name := cs!"transformer.h.${layer_index}.ln_2.bias" },
      { name := cs!"transformer.h.${layer_index}.mlp.c_fc.weight" },
      { name := cs!"transformer.h.${layer_index}.mlp.c_fc.bias" },
      { name := cs!"transformer.h.${layer_index}.mlp.c_fc2.weight" },
      { name := cs!"transformer.h.${layer_index}.mlp.c_fc2.bias" },
      { name := cs!"transformer.h.${layer_index}.mlp.c_proj.weight" },
      { name := cs!"transformer.h.${layer_index}.mlp.c_proj.bias" }]
    post := [{ name := cs!"transformer.ln_f.weight" },
      { name := cs!"transformer.ln_f.bias" }] }]

/-- `_data/architectures/lfm2.json` (whole file). -/
def lfm2 : List Module := [
  { pre := [{ name := cs!"model.embed_tokens.weight", isEmbed := true },
      { name := cs!"model.embedding_norm.weight", isEmbed := true }]
    layers := [{ name := cs!"model.layers.${layer_index}.feed_forward.w1.weight" },
      { name := cs!"model.layers.${layer_index}.feed_forward.w2.weight" },
      { name := cs!"model.layers.${layer_index}.feed_forward.w3.weight" },
      { name := cs!"model.layers.${layer_index}.ffn_norm.weight" },
      { name := cs!"model.layers.${layer_index}.operator_norm.weight" },
      { name := cs!"model.layers.${layer_index}.conv.conv.weight", optional := true },
      { name := cs!"model.layers.${layer_index}.conv.in_proj.weight", optional := true },
      { name := cs!"model.layers.${layer_index}.conv.out_proj.weight", optional := true },
      { name := cs!"model.layers.${layer_index}.self_attn.k_layernorm.weight", optional := true },
      { name := cs!"model.layers.${layer_index}.self_attn.k_proj.weight", optional := true },
      { name := cs!"model.layers.${layer_index}.self_attn.out_proj.weight", optional := true },
      { name := cs!"model.layers.${layer_index}.self_attn.q_layernorm.weight", optional := true },
      { name := cs!"model.layers.${layer_index}.self_attn.q_proj.weight", optional := true },
      { name := cs!"model.layers.${layer_index}.self_attn.v_proj.weight", optional := true }]
    post := [{ name := cs!"lm_head.weight", isEmbed := true, optional := true }] }]

/-- `_data/architectures/llama-sequence-classification.json` (whole file). -/
def llama_sequence_classification : List Module := [
  { pre := [{ name := cs!"model.embed_tokens.weight", isEmbed := true }]
    layers := [{ name := cs!"model.layers.${layer_index}.input_layernorm.weight" },
      { name := cs!"model.layers.${layer_index}.self_attn.q_proj.weight" },
      { name := cs!"model.layers.${layer_index}.self_attn.k_proj.weight" },
      { name := cs!"model.layers.${layer_index}.self_attn.v_proj.weight" },
      { name := cs!"model.layers.${layer_index}.self_attn.o_proj.weight" },
      { name := cs!"model.layers.${layer_index}.post_attention_layernorm.weight" },
      { name := cs!"model.layers.${layer_index}.mlp.up_proj.weight" },
      { name := cs!"model.layers.${layer_index}.mlp.gate_proj.weight" },
      { name := cs!"model.layers.${layer_index}.mlp.down_proj.weight" }]
    post := [{ name := cs!"model.norm.weight" },
      { name := cs!"score.weight" },
      { name := cs!"score.bias", optional := true }] }]

/-- `_data/architectures/llama.json` (whole file). -/
def llama : List Module := [
  { pre := [{ name := cs!"model.embed_tokens.weight", isEmbed := true }]
    layers := [{ name := cs!"model.layers.${layer_index}.input_layernorm.weight" },
      { name := cs!"model.layers.${layer_index}.self_attn.q_proj.weight" },
      { name := cs!"model.layers.${layer_index}.self_attn.k_proj.weight" },
      { name := cs!"model.layers.${layer_index}.self_attn.v_proj.weight" },
      { name := cs!"model.layers.${layer_index}.self_attn.o_proj.weight" },
      { name := cs!"model.layers.${layer_index}.post_attention_layernorm.weight" },
      { name := cs!"model.layers.${layer_index}.mlp.up_proj.weight" },
      { name := cs!"model.layers.${layer_index}.mlp.gate_proj.weight" },
      { name := cs!"model.layers.${layer_index}.mlp.down_proj.weight" }]
    post := [{ name := cs!"model.norm.weight" },
      { name := cs!"lm_head.weight", isEmbed := true, optional := true, tiedNames := some [cs!"model.embed_tokens.weight"] }] }]

/-- `_data/architectures/llama4.json` (whole file). -/
def llama4 : List Module := [
  { pre := [{ name := cs!"model.embed_tokens.weight", isEmbed := true }]
    layers := [{ name := cs!"model.layers.${layer_index}.input_layernorm.weight" },
      { name := cs!"model.layers.${layer_index}.self_attn.q_proj.weight" },
      { name := cs!"model.layers.${layer_index}.self_attn.k_proj.weight" },
      { name := cs!"model.layers.${layer_index}.self_attn.v_proj.weight" },
      { name := cs!"model.layers.${layer_index}.self_attn.o_proj.weight" },
      { name := cs!"model.layers.${layer_index}.post_attention_layernorm.weight" },
      { name := cs!"model.layers.${layer_index}.feed_forward.shared_expert.down_proj.weight", optional := true },
      { name := cs!"model.layers.${layer_index}.feed_forward.shared_expert.gate_proj.weight", optional := true },
      { name := cs!"model.layers.${layer_index}.feed_forward.shared_expert.up_proj.weight", optional := true },
      { name := cs!"model.layers.${layer_index}.feed_forward.experts.down_proj", optional := true },
      { name := cs!"model.layers.${layer_index}.feed_forward.experts.gate_up_proj", optional := true },
      { name := cs!"model.layers.${layer_index}.feed_forward.router.weight", optional := true },
      { name := cs!"model.layers.${layer_index}.feed_forward.down_proj.weight", optional := true },
      { name := cs!"model.layers.${layer_index}.feed_forward.gate_proj.weight", optional := true },
      { name := cs!"model.layers.${layer_index}.feed_forward.up_proj.weight", optional := true }]
    post := [{ name := cs!"model.norm.weight" },
      { name := cs!"lm_head.weight", isEmbed := true, optional := true, tiedNames := some [cs!"model.embed_tokens.weight"] }]
    weightPrefix := some cs!"language_model." },
  { pre := [{ name := cs!"linear_1.weight" }]
    layers := []
    post := []
    overrideNumLayers := some 0
    weightPrefix := some cs!"multi_modal_projector." },
  { pre := [{ name := cs!"class_embedding" },
      { name := cs!"patch_embedding.linear.weight" },
      { name := cs!"positional_embedding_vlm" },
      { name := cs!"layernorm_pre.bias" },
      { name := cs!"layernorm_pre.weight" }]
    layers := [{ name := cs!"model.layers.${layer_index}.input_layernorm.weight" },
      { name := cs!"model.layers.${layer_index}.input_layernorm.bias" },
      { name := cs!"model.layers.${layer_index}.mlp.fc1.weight" },
      { name := cs!"model.layers.${layer_index}.mlp.fc1.bias" },
      { name := cs!"model.layers.${layer_index}.mlp.fc2.weight" },
      { name := cs!"model.layers.${layer_index}.mlp.fc2.bias" },
      { name := cs!"model.layers.${layer_index}.post_attention_layernorm.weight" },
      { name := cs!"model.layers.${layer_index}.post_attention_layernorm.bias" },
      { name := cs!"model.layers.${layer_index}.self_attn.k_proj.weight" },
      { name := cs!"model.layers.${layer_index}.self_attn.k_proj.bias" },
      { name := cs!"model.layers.${layer_index}.self_attn.o_proj.weight" },
      { name := cs!"model.layers.${layer_index}.self_attn.o_proj.bias" },
      { name := cs!"model.layers.${layer_index}.self_attn.q_proj.weight" },
      { name := cs!"model.layers.${layer_index}.self_attn.q_proj.bias" },
      { name := cs!"model.layers.${layer_index}.self_attn.v_proj.weight" },
      { name := cs!"model.layers.${layer_index}.self_attn.v_proj.bias" }]
    post := [{ name := cs!"layernorm_post.weight" },
      { name := cs!"layernorm_post.bias" },
      { name := cs!"vision_adapter.mlp.fc1.weight" },
      { name := cs!"vision_adapter.mlp.fc2.weight" }]
    weightPrefix := some cs!"vision_model." }]

/-- `_data/architectures/mamba.json` (whole file). -/
def mamba : List Module := [
  { pre := [{ name := cs!"backbone.embeddings.weight", isEmbed := true }]
    layers := [{ name := cs!"backbone.layers.${layer_index}.mixer.A_log" },
      { name := cs!"backbone.layers.${layer_index}.mixer.conv1d.bias" },
      { name := cs!"backbone.layers.${layer_index}.mixer.conv1d.weight" },
      { name := cs!"backbone.layers.${layer_index}.mixer.D" },
      { name := cs!"backbone.layers.${layer_index}.mixer.dt_proj.bias" },
      { name := cs!"backbone.layers.${layer_index}.mixer.dt_proj.weight" },
      { name := cs!"backbone.layers.${layer_index}.mixer.in_proj.weight" },
      { name := cs!"backbone.layers.${layer_index}.mixer.out_proj.weight" },
      { name := cs!"backbone.layers.${layer_index}.mixer.x_proj.weight" },
      { name := cs!"backbone.layers.${layer_index}.norm.weight" }]
    post := [{ name := cs!"backbone.norm_f.weight" },
      { name := cs!"lm_head.weight", isEmbed := true, optional := true, tiedNames := some [cs!"backbone.embeddings.weight"] }] }]

/-- `_data/architectures/mistral.json` (whole file). -/
def mistral : List Module := [
  { pre := [{ name := cs!"model.embed_tokens.weight", isEmbed := true }]
    layers := [{ name := cs!"model.layers.${layer_index}.input_layernorm.weight" },
      { name := cs!"model.layers.${layer_index}.self_attn.q_proj.weight" },
      { name := cs!"model.layers.${layer_index}.self_attn.k_proj.weight" },
      { name := cs!"model.layers.${layer_index}.self_attn.v_proj.weight" },
      { name := cs!"model.layers.${layer_index}.self_attn.o_proj.weight" },
      { name := cs!"model.layers.${layer_index}.post_attention_layernorm.weight" },
      { name := cs!"model.layers.${layer_index}.mlp.up_proj.weight" },
      { name := cs!"model.layers.${layer_index}.mlp.gate_proj.weight" },
      { name := cs!"model.layers.${layer_index}.mlp.down_proj.weight" }]
    post := [{ name := cs!"model.norm.weight" },
      { name := cs!"lm_head.weight", isEmbed := true, optional := true, tiedNames := some [cs!"model.embed_tokens.weight"] }] }]

/-- `_data/architectures/mistral3.json` (whole file). -/
def mistral3 : List Module := [
  { pre := [{ name := cs!"model.embed_tokens.weight", isEmbed := true }]
    layers := [{ name := cs!"model.layers.${layer_index}.input_layernorm.weight" },
      { name := cs!"model.layers.${layer_index}.self_attn.q_proj.weight" },
      { name := cs!"model.layers.${layer_index}.self_attn.k_proj.weight" },
      { name := cs!"model.layers.${layer_index}.self_attn.v_proj.weight" },
      { name := cs!"model.layers.${layer_index}.self_attn.o_proj.weight" },
      { name := cs!"model.layers.${layer_index}.post_attention_layernorm.weight" },
      { name := cs!"model.layers.${layer_index}.mlp.up_proj.weight" },
      { name := cs!"model.layers.${layer_index}.mlp.gate_proj.weight" },
      { name := cs!"model.layers.${layer_index}.mlp.down_proj.weight" }]
    post := [{ name := cs!"model.norm.weight" },
      { name := cs!"lm_head.weight", isEmbed := true, optional := true, tiedNames := some [cs!"model.embed_tokens.weight"] }]
    weightPrefix := some cs!"language_model." },
  { pre := [{ name := cs!"linear_1.weight" },
      { name := cs!"linear_2.weight" },
      { name := cs!"norm.weight" },
      { name := cs!"patch_merger.merging_layer.weight" }]
    layers := []
    post := []
    overrideNumLayers := some 0
    weightPrefix := some cs!"multi_modal_projector." },
  { pre := [{ name := cs!"patch_conv.weight" },
      { name := cs!"ln_pre.weight" }]
    layers := [{ name := cs!"transformer.layers.${layer_index}.ffn_norm.weight" },
      { name := cs!"transformer.layers.${layer_index}.feed_forward.down_proj.weight" },
      { name := cs!"transformer.layers.${layer_index}.feed_forward.gate_proj.weight" },
      { name := cs!"transformer.layers.${layer_index}.feed_forward.up_proj.weight" },
      { name := cs!"transformer.layers.${layer_index}.attention_norm.weight" },
      { name := cs!"transformer.layers.${layer_index}.attention.k_proj.weight" },
      { name := cs!"transformer.layers.${layer_index}.attention.o_proj.weight" },
      { name := cs!"transformer.layers.${layer_index}.attention.q_proj.weight" },
      { name := cs!"transformer.layers.${layer_index}.attention.v_proj.weight" }]
    post := []
    weightPrefix := some cs!"vision_tower." }]

/-- `_data/architectures/mixtral.json` (whole file). -/
def mixtral : List Module := [
  { pre := [{ name := cs!"model.embed_tokens.weight", isEmbed := true }]
    layers := [{ name := cs!"model.layers.${layer_index}.input_layernorm.weight" },
      { name := cs!"model.layers.${layer_index}.self_attn.q_proj.weight" },
      { name := cs!"model.layers.${layer_index}.self_attn.k_proj.weight" },
      { name := cs!"model.layers.${layer_index}.self_attn.v_proj.weight" },
      { name := cs!"model.layers.${layer_index}.self_attn.o_proj.weight" },
      { name := cs!"model.layers.${layer_index}.post_attention_layernorm.weight" },
      { name := cs!"model.layers.${layer_index}.mlp.experts.gate_up_proj" },
      { name := cs!"model.layers.${layer_index}.mlp.experts.down_proj" },
      { name := cs!"model.layers.${layer_index}.mlp.gate.weight" }]
    post := [{ name := cs!"model.norm.weight" },
      { name := cs!"lm_head.weight", isEmbed := true, optional := true, tiedNames := some [cs!"model.embed_tokens.weight"] }] }]

/-- `_data/architectures/olmo2.json` (whole file). -/
def olmo2 : List Module := [
  { pre := [{ name := cs!"model.embed_tokens.weight", isEmbed := true }]
    layers := [{ name := cs!"model.layers.${layer_index}.self_attn.q_proj.weight" },
      { name := cs!"model.layers.${layer_index}.self_attn.k_proj.weight" },
      { name := cs!"model.layers.${layer_index}.self_attn.v_proj.weight" },
      { name := cs!"model.layers.${layer_index}.self_attn.o_proj.weight" },
      { name := cs!"model.layers.${layer_index}.post_attention_layernorm.weight" },
      { name := cs!"model.layers.${layer_index}.mlp.up_proj.weight" },
      { name := cs!"model.layers.${layer_index}.mlp.gate_proj.weight" },
      { name := cs!"model.layers.${layer_index}.mlp.down_proj.weight" },
      { name := cs!"model.layers.${layer_index}.post_feedforward_layernorm.weight" }]
    post := [{ name := cs!"model.norm.weight" },
      { name := cs!"lm_head.weight", isEmbed := true, optional := true, tiedNames := some [cs!"model.embed_tokens.weight"] }] }]

/-- `_data/architectures/phi-1.json` (whole file). -/
def phi_1 : List Module := [
  { pre := [{ name := cs!"layers.0.wte.weight", isEmbed := true }]
    layers := [{ name := cs!"layers.${layer_index}.ln.bias" },
      { name := cs!"layers.${layer_index}.ln.weight" },
      { name := cs!"layers.${layer_index}.mixer.Wqkv.bias" },
      { name := cs!"layers.${layer_index}.mixer.Wqkv.weight" },
      { name := cs!"layers.${layer_index}.mixer.out_proj.bias" },
      { name := cs!"layers.${layer_index}.mixer.out_proj.weight" },
      { name := cs!"layers.${layer_index}.mixer.rotary_emb.inv_freq" },
      { name := cs!"layers.${layer_index}.mlp.fc1.bias" },
      { name := cs!"layers.${layer_index}.mlp.fc1.weight" },
      { name := cs!"layers.${layer_index}.mlp.fc2.bias" },
      { name := cs!"layers.${layer_index}.mlp.fc2.weight" }]
    post := [{ name := cs!"layers.${num_layers}.linear.bias", isEmbed := true },
      { name := cs!"layers.${num_layers}.linear.weight", isEmbed := true },
      { name := cs!"layers.${num_layers}.ln.bias" },
      { name := cs!"layers.${num_layers}.ln.weight" }] }]

/-- `_data/architectures/phi2-old.json` (whole file). -/
def phi2_old : List Module := [
  { pre := [{ name := cs!"transformer.embd.wte.weight", isEmbed := true }]
    layers := [{ name := cs!"transformer.h.${layer_index}.ln.bias" },
      { name := cs!"transformer.h.${layer_index}.ln.weight" },
      { name := cs!"transformer.h.${layer_index}.mixer.out_proj.bias" },
      { name := cs!"transformer.h.${layer_index}.mixer.out_proj.weight" },
      { name := cs!"transformer.h.${layer_index}.mixer.Wqkv.bias" },
      { name := cs!"transformer.h.${layer_index}.mixer.Wqkv.weight" },
      { name := cs!"transformer.h.${layer_index}.mlp.fc1.bias" },
      { name := cs!"transformer.h.${layer_index}.mlp.fc1.weight" },
      { name := cs!"transformer.h.${layer_index}.mlp.fc2.bias" },
      { name := cs!"transformer.h.${layer_index}.mlp.fc2.weight" }]
    post := [{ name := cs!"lm_head.linear.bias" },
      { name := cs!"lm_head.linear.weight", isEmbed := true },
      { name := cs!"lm_head.ln.bias" },
      { name := cs!"lm_head.ln.weight" }] }]

/-- `_data/architectures/phi2.json` (whole file). -/
def phi2 : List Module := [
  { pre := [{ name := cs!"model.embed_tokens.weight", isEmbed := true }]
    layers := [{ name := cs!"model.layers.${layer_index}.input_layernorm.bias" },
      { name := cs!"model.layers.${layer_index}.input_layernorm.weight" },
      { name := cs!"model.layers.${layer_index}.self_attn.dense.bias" },
      { name := cs!"model.layers.${layer_index}.self_attn.dense.weight" },
      { name := cs!"model.layers.${layer_index}.self_attn.q_proj.bias" },
      { name := cs!"model.layers.${layer_index}.self_attn.q_proj.weight" },
      { name := cs!"model.layers.${layer_index}.self_attn.k_proj.bias" },
      { name := cs!"model.layers.${layer_index}.self_attn.k_proj.weight" },
      { name := cs!"model.layers.${layer_index}.self_attn.v_proj.bias" },
      { name := cs!"model.layers.${layer_index}.self_attn.v_proj.weight" },
      { name := cs!"model.layers.${layer_index}.mlp.fc1.bias" },
      { name := cs!"model.layers.${layer_index}.mlp.fc1.weight" },
      { name := cs!"model.layers.${layer_index}.mlp.fc2.bias" },
      { name := cs!"model.layers.${layer_index}.mlp.fc2.weight" }]
    post := [{ name := cs!"lm_head.bias" },
      { name := cs!"lm_head.weight", isEmbed := true },
      { name := cs!"model.final_layernorm.bias" },
      { name := cs!"model.final_layernorm.weight" }] }]

/-- `_data/architectures/phi3-small.json` (whole file). -/
def phi3_small : List Module := [
  { pre := [{ name := cs!"model.embed_tokens.weight", isEmbed := true }]
    layers := [{ name := cs!"model.layers.${layer_index}.input_layernorm.weight" },
      { name := cs!"model.layers.${layer_index}.input_layernorm.bias" },
      { name := cs!"model.layers.${layer_index}.post_attention_layernorm.weight" },
      { name := cs!"model.layers.${layer_index}.post_attention_layernorm.bias" },
      { name := cs!"model.layers.${layer_index}.self_attn.dense.weight" },
      { name := cs!"model.layers.${layer_index}.self_attn.dense.bias" },
      { name := cs!"model.layers.${layer_index}.self_attn.query_key_value.weight" },
      { name := cs!"model.layers.${layer_index}.self_attn.query_key_value.bias" },
      { name := cs!"model.layers.${layer_index}.mlp.up_proj.weight" },
      { name := cs!"model.layers.${layer_index}.mlp.up_proj.bias" },
      { name := cs!"model.layers.${layer_index}.mlp.down_proj.weight" },
      { name := cs!"model.layers.${layer_index}.mlp.down_proj.bias" }]
    post := [{ name := cs!"lm_head.weight", isEmbed := true, optional := true, tiedNames := some [cs!"model.embed_tokens.weight"] },
      { name := cs!"model.final_layernorm.weight" },
      { name := cs!"model.final_layernorm.bias" }] }]

/-- `_data/architectures/phi3.json` (whole file). -/
def phi3 : List Module := [
  { pre := [{ name := cs!"model.embed_tokens.weight", isEmbed := true }]
    layers := [{ name := cs!"model.layers.${layer_index}.input_layernorm.weight" },
      { name := cs!"model.layers.${layer_index}.post_attention_layernorm.weight" },
      { name := cs!"model.layers.${layer_index}.self_attn.o_proj.weight" },
      { name := cs!"model.layers.${layer_index}.self_attn.qkv_proj.weight" },
      { name := cs!"model.layers.${layer_index}.mlp.gate_up_proj.weight" },
      { name := cs!"model.layers.${layer_index}.mlp.down_proj.weight" }]
    post := [{ name := cs!"lm_head.weight", isEmbed := true },
      { name := cs!"model.norm.weight" }] }]

/-- `_data/architectures/qwen.json` (whole file). -/
def qwen : List Module := [
  { pre := [{ name := cs!"transformer.wte.weight", isEmbed := true }]
    layers := [{ name := cs!"transformer.h.${layer_index}.attn.c_attn.bias" },
      { name := cs!"transformer.h.${layer_index}.attn.c_attn.weight" },
      { name := cs!"transformer.h.${layer_index}.attn.c_proj.weight" },
      { name := cs!"transformer.h.${layer_index}.ln_1.weight" },
      { name := cs!"transformer.h.${layer_index}.ln_2.weight" },
      { name := cs!"transformer.h.${layer_index}.mlp.c_proj.weight" },
      { name := cs!"transformer.h.${layer_index}.mlp.w1.weight" },
      { name := cs!"transformer.h.${layer_index}.mlp.w2.weight" }]
    post := [{ name := cs!"transformer.ln_f.weight" },
      { name := cs!"lm_head.weight", isEmbed := true }] }]

/-- `_data/architectures/qwen2.json` (whole file). -/
def qwen2 : List Module := [
  { pre := [{ name := cs!"model.embed_tokens.weight", isEmbed := true }]
    layers := [{ name := cs!"model.layers.${layer_index}.input_layernorm.weight" },
      { name := cs!"model.layers.${layer_index}.mlp.down_proj.weight" },
      { name := cs!"model.layers.${layer_index}.mlp.gate_proj.weight" },
      { name := cs!"model.layers.${layer_index}.mlp.up_proj.weight" },
      { name := cs!"model.layers.${layer_index}.post_attention_layernorm.weight" },
      { name := cs!"model.layers.${layer_index}.self_attn.k_proj.bias" },
      { name := cs!"model.layers.${layer_index}.self_attn.k_proj.weight" },
      { name := cs!"model.layers.${layer_index}.self_attn.o_proj.weight" },
      { name := cs!"model.layers.${layer_index}.self_attn.q_proj.bias" },
      { name := cs!"model.layers.${layer_index}.self_attn.q_proj.weight" },
      { name := cs!"model.layers.${layer_index}.self_attn.v_proj.bias" },
      { name := cs!"model.layers.${layer_index}.self_attn.v_proj.weight" }]
    post := [{ name := cs!"model.norm.weight" },
      { name := cs!"lm_head.weight", isEmbed := true, optional := true, tiedNames := some [cs!"model.embed_tokens.weight"] }] }]

/-- `_data/architectures/qwen2_5_vl.json` (whole file). -/
def qwen2_5_vl : List Module := [
  { pre := [{ name := cs!"model.embed_tokens.weight", isEmbed := true }]
    layers := [{ name := cs!"model.layers.${layer_index}.input_layernorm.weight" },
      { name := cs!"model.layers.${layer_index}.mlp.down_proj.weight" },
      { name := cs!"model.layers.${layer_index}.mlp.gate_proj.weight" },
      { name := cs!"model.layers.${layer_index}.mlp.up_proj.weight" },
      { name := cs!"model.layers.${layer_index}.post_attention_layernorm.weight" },
      { name := cs!"model.layers.${layer_index}.self_attn.k_proj.bias" },
      { name := cs!"model.layers.${layer_index}.self_attn.k_proj.weight" },
      { name := cs!"model.layers.${layer_index}.self_attn.o_proj.weight" },
      { name := cs!"model.layers.${layer_index}.self_attn.q_proj.bias" },
      { name := cs!"model.layers.${layer_index}.self_attn.q_proj.weight" },
      { name := cs!"model.layers.${layer_index}.self_attn.v_proj.bias" },
      { name := cs!"model.layers.${layer_index}.self_attn.v_proj.weight" }]
    post := [{ name := cs!"model.norm.weight" },
      { name := cs!"lm_head.weight", isEmbed := true, optional := true, tiedNames := some [cs!"model.embed_tokens.weight"] }] },
  { pre := [{ name := cs!"visual.merger.ln_q.weight" }]
    layers := [{ name := cs!"visual.merger.mlp.0.weight" },
      { name := cs!"visual.merger.mlp.0.bias" },
      { name := cs!"visual.merger.mlp.2.weight" },
      { name := cs!"visual.merger.mlp.2.bias" }]
    post := []
    overrideNumLayers := some 2 },
  { pre := [{ name := cs!"visual.patch_embed.proj.weight", isEmbed := true }]
    layers := [{ name := cs!"visual.blocks.${layer_index}.attn.proj.bias" },
      { name := cs!"visual.blocks.${layer_index}.attn.proj.weight" },
      { name := cs!"visual.blocks.${layer_index}.attn.qkv.bias" },
      { name := cs!"visual.blocks.${layer_index}.attn.qkv.weight" },
      { name := cs!"visual.blocks.${layer_index}.mlp.down_proj.bias" },
      { name := cs!"visual.blocks.${layer_index}.mlp.down_proj.weight" },
      { name := cs!"visual.blocks.${layer_index}.mlp.gate_proj.bias" },
      { name := cs!"visual.blocks.${layer_index}.mlp.gate_proj.weight" },
      { name := cs!"visual.blocks.${layer_index}.mlp.up_proj.bias" },
      { name := cs!"visual.blocks.${layer_index}.mlp.up_proj.weight" },
      { name := cs!"visual.blocks.${layer_index}.norm1.weight" },
      { name := cs!"visual.blocks.${layer_index}.norm2.weight" }]
    post := [] }]

/-- `_data/architectures/qwen2_vl.json` (whole file). -/
def qwen2_vl : List Module := [
  { pre := [{ name := cs!"model.embed_tokens.weight", isEmbed := true }]
    layers := [{ name := cs!"model.layers.${layer_index}.input_layernorm.weight" },
      { name := cs!"model.layers.${layer_index}.mlp.down_proj.weight" },
      { name := cs!"model.layers.${layer_index}.mlp.gate_proj.weight" },
      { name := cs!"model.layers.${layer_index}.mlp.up_proj.weight" },
      { name := cs!"model.layers.${layer_index}.post_attention_layernorm.weight" },
      { name := cs!"model.layers.${layer_index}.self_attn.k_proj.bias" },
      { name := cs!"model.layers.${layer_index}.self_attn.k_proj.weight" },
      { name := cs!"model.layers.${layer_index}.self_attn.o_proj.weight" },
      { name := cs!"model.layers.${layer_index}.self_attn.q_proj.bias" },
      { name := cs!"model.layers.${layer_index}.self_attn.q_proj.weight" },
      { name := cs!"model.layers.${layer_index}.self_attn.v_proj.bias" },
      { name := cs!"model.layers.${layer_index}.self_attn.v_proj.weight" }]
    post := [{ name := cs!"model.norm.weight" },
      { name := cs!"lm_head.weight", isEmbed := true, optional := true, tiedNames := some [cs!"model.embed_tokens.weight"] }] },
  { pre := [{ name := cs!"visual.merger.ln_q.weight" },
      { name := cs!"visual.merger.ln_q.bias" }]
    layers := [{ name := cs!"visual.merger.mlp.0.weight" },
      { name := cs!"visual.merger.mlp.0.bias" },
      { name := cs!"visual.merger.mlp.2.weight" },
      { name := cs!"visual.merger.mlp.2.bias" }]
    post := []
    overrideNumLayers := some 2 },
  { pre := [{ name := cs!"visual.patch_embed.proj.weight", isEmbed := true }]
    layers := [{ name := cs!"visual.blocks.${layer_index}.norm1.weight" },
      { name := cs!"visual.blocks.${layer_index}.norm1.bias" },
      { name := cs!"visual.blocks.${layer_index}.norm2.weight" },
      { name := cs!"visual.blocks.${layer_index}.norm2.bias" },
      { name := cs!"visual.blocks.${layer_index}.attn.qkv.weight" },
      { name := cs!"visual.blocks.${layer_index}.attn.qkv.bias" },
      { name := cs!"visual.blocks.${layer_index}.attn.proj.weight" },
      { name := cs!"visual.blocks.${layer_index}.attn.proj.bias" },
      { name := cs!"visual.blocks.${layer_index}.mlp.fc1.weight" },
      { name := cs!"visual.blocks.${layer_index}.mlp.fc1.bias" },
      { name := cs!"visual.blocks.${layer_index}.mlp.fc2.weight" },
      { name := cs!"visual.blocks.${layer_index}.mlp.fc2.bias" }]
    post := [] }]

/-- `_data/architectures/qwen3.json` (whole file). -/
def qwen3 : List Module := [
  { pre := [{ name := cs!"model.embed_tokens.weight", isEmbed := true }]
    layers := [{ name := cs!"model.layers.${layer_index}.input_layernorm.weight" },
      { name := cs!"model.layers.${layer_index}.mlp.down_proj.weight" },
      { name := cs!"model.layers.${layer_index}.mlp.gate_proj.weight" },
      { name := cs!"model.layers.${layer_index}.mlp.up_proj.weight" },
      { name := cs!"model.layers.${layer_index}.post_attention_layernorm.weight" },
      { name := cs!"model.layers.${layer_index}.self_attn.k_norm.weight" },
      { name := cs!"model.layers.${layer_index}.self_attn.k_proj.weight" },
      { name := cs!"model.layers.${layer_index}.self_attn.q_norm.weight" },
      { name := cs!"model.layers.${layer_index}.self_attn.q_proj.weight" },
      { name := cs!"model.layers.${layer_index}.self_attn.v_proj.weight" },
      { name := cs!"model.layers.${layer_index}.self_attn.o_proj.weight" }]
    post := [{ name := cs!"model.norm.weight" },
      { name := cs!"lm_head.weight", isEmbed := true, optional := true, tiedNames := some [cs!"model.embed_tokens.weight"] }] }]

/-- `_data/architectures/qwen3_moe.json` (whole file). -/
def qwen3_moe : List Module := [
  { pre := [{ name := cs!"model.embed_tokens.weight", isEmbed := true }]
    layers := [{ name := cs!"model.layers.${layer_index}.input_layernorm.weight" },
      { name := cs!"model.layers.${layer_index}.mlp.experts.down_proj" },
      { name := cs!"model.layers.${layer_index}.mlp.experts.gate_up_proj" },
      { name := cs!"model.layers.${layer_index}.mlp.gate.weight" },
      { name := cs!"model.layers.${layer_index}.post_attention_layernorm.weight" },
      { name := cs!"model.layers.${layer_index}.self_attn.k_norm.weight" },
      { name := cs!"model.layers.${layer_index}.self_attn.k_proj.weight" },
      { name := cs!"model.layers.${layer_index}.self_attn.q_norm.weight" },
      { name := cs!"model.layers.${layer_index}.self_attn.q_proj.weight" },
      { name := cs!"model.layers.${layer_index}.self_attn.v_proj.weight" },
      { name := cs!"model.layers.${layer_index}.self_attn.o_proj.weight" }]
    post := [{ name := cs!"model.norm.weight" },
      { name := cs!"lm_head.weight", isEmbed := true, optional := true, tiedNames := some [cs!"model.embed_tokens.weight"] }] }]

/-- `_data/architectures/qwen3_vl.json` (whole file). -/
def qwen3_vl : List Module := [
  { pre := [{ name := cs!"model.language_model.embed_tokens.weight", isEmbed := true }]
    layers := [{ name := cs!"model.language_model.layers.${layer_index}.input_layernorm.weight" },
      { name := cs!"model.language_model.layers.${layer_index}.mlp.experts.down_proj" },
      { name := cs!"model.language_model.layers.${layer_index}.mlp.experts.gate_up_proj" },
      { name := cs!"model.language_model.layers.${layer_index}.mlp.gate.weight" },
      { name := cs!"model.language_model.layers.${layer_index}.post_attention_layernorm.weight" },
      { name := cs!"model.language_model.layers.${layer_index}.self_attn.k_norm.weight" },
      { name := cs!"model.language_model.layers.${layer_index}.self_attn.k_proj.weight" },
      { name := cs!"model.language_model.layers.${layer_index}.self_attn.q_norm.weight" },
      { name := cs!"model.language_model.layers.${layer_index}.self_attn.q_proj.weight" },
      { name := cs!"model.language_model.layers.${layer_index}.self_attn.v_proj.weight" },
      { name := cs!"model.language_model.layers.${layer_index}.self_attn.o_proj.weight" }]
    post := [{ name := cs!"model.language_model.norm.weight" },
      { name := cs!"lm_head.weight", isEmbed := true, optional := true, tiedNames := some [cs!"model.language_model.embed_tokens.weight"] }] },
  { pre := [{ name := cs!"model.visual.merger.norm.weight" },
      { name := cs!"model.visual.merger.norm.bias" },
      { name := cs!"model.visual.merger.linear_fc1.weight" },
      { name := cs!"model.visual.merger.linear_fc1.bias" },
      { name := cs!"model.visual.merger.linear_fc2.weight" },
      { name := cs!"model.visual.merger.linear_fc2.bias" }]
    layers := [{ name := cs!"model.visual.deepstack_merger_list.${layer_index}.norm.weight" },
      { name := cs!"model.visual.deepstack_merger_list.${layer_index}.norm.bias" },
      { name := cs!"model.visual.deepstack_merger_list.${layer_index}.linear_fc1.weight" },
      { name := cs!"model.visual.deepstack_merger_list.${layer_index}.linear_fc1.bias" },
      { name := cs!"model.visual.deepstack_merger_list.${layer_index}.linear_fc2.weight" },
      { name := cs!"model.visual.deepstack_merger_list.${layer_index}.linear_fc2.bias" }]
    post := []
    overrideNumLayers := some 3 },
  { pre := [{ name := cs!"model.visual.patch_embed.proj.weight", isEmbed := true },
      { name := cs!"model.visual.patch_embed.proj.bias" },
      { name := cs!"model.visual.pos_embed.weight", isEmbed := true }]
    layers := [{ name := cs!"model.visual.blocks.${layer_index}.norm1.weight" },
      { name := cs!"model.visual.blocks.${layer_index}.norm1.bias" },
      { name := cs!"model.visual.blocks.${layer_index}.norm2.weight" },
      { name := cs!"model.visual.blocks.${layer_index}.norm2.bias" },
      { name := cs!"model.visual.blocks.${layer_index}.attn.qkv.weight" },
      { name := cs!"model.visual.blocks.${layer_index}.attn.qkv.bias" },
      { name := cs!"model.visual.blocks.${layer_index}.attn.proj.weight" },
      { name := cs!"model.visual.blocks.${layer_index}.attn.proj.bias" },
      { name := cs!"model.visual.blocks.${layer_index}.mlp.linear_fc1.weight" },
      { name := cs!"model.visual.blocks.${layer_index}.mlp.linear_fc1.bias" },
      { name := cs!"model.visual.blocks.${layer_index}.mlp.linear_fc2.weight" },
      { name := cs!"model.visual.blocks.${layer_index}.mlp.linear_fc2.bias" }]
    post := [] }]

/-- `_data/architectures/qwen3_vl_dense.json` (whole file). -/
def qwen3_vl_dense : List Module := [
  { pre := [{ name := cs!"model.language_model.embed_tokens.weight", isEmbed := true }]
    layers := [{ name := cs!"model.language_model.layers.${layer_index}.input_layernorm.weight" },
      { name := cs!"model.language_model.layers.${layer_index}.mlp.down_proj.weight" },
      { name := cs!"model.language_model.layers.${layer_index}.mlp.gate_proj.weight" },
      { name := cs!"model.language_model.layers.${layer_index}.mlp.up_proj.weight" },
      { name := cs!"model.language_model.layers.${layer_index}.post_attention_layernorm.weight" },
      { name := cs!"model.language_model.layers.${layer_index}.self_attn.k_norm.weight" },
      { name := cs!"model.language_model.layers.${layer_index}.self_attn.k_proj.weight" },
      { name := cs!"model.language_model.layers.${layer_index}.self_attn.o_proj.weight" },
      { name := cs!"model.language_model.layers.${layer_index}.self_attn.q_norm.weight" },
      { name := cs!"model.language_model.layers.${layer_index}.self_attn.q_proj.weight" },
      { name := cs!"model.language_model.layers.${layer_index}.self_attn.v_proj.weight" }]
    post := [{ name := cs!"model.language_model.norm.weight" },
      { name := cs!"lm_head.weight", isEmbed := true, optional := true, tiedNames := some [cs!"model.language_model.embed_tokens.weight"] }] },
  { pre := [{ name := cs!"model.visual.merger.norm.weight" },
      { name := cs!"model.visual.merger.norm.bias" },
      { name := cs!"model.visual.merger.linear_fc1.weight" },
      { name := cs!"model.visual.merger.linear_fc1.bias" },
      { name := cs!"model.visual.merger.linear_fc2.weight" },
      { name := cs!"model.visual.merger.linear_fc2.bias" }]
    layers := [{ name := cs!"model.visual.deepstack_merger_list.${layer_index}.norm.weight" },
      { name := cs!"model.visual.deepstack_merger_list.${layer_index}.norm.bias" },
      { name := cs!"model.visual.deepstack_merger_list.${layer_index}.linear_fc1.weight" },
      { name := cs!"model.visual.deepstack_merger_list.${layer_index}.linear_fc1.bias" },
      { name := cs!"model.visual.deepstack_merger_list.${layer_index}.linear_fc2.weight" },
      { name := cs!"model.visual.deepstack_merger_list.${layer_index}.linear_fc2.bias" }]
    post := []
    overrideNumLayers := some 3 },
  { pre := [{ name := cs!"model.visual.patch_embed.proj.weight", isEmbed := true },
      { name := cs!"model.visual.patch_embed.proj.bias" },
      { name := cs!"model.visual.pos_embed.weight", isEmbed := true }]
    layers := [{ name := cs!"model.visual.blocks.${layer_index}.norm1.weight" },
      { name := cs!"model.visual.blocks.${layer_index}.norm1.bias" },
      { name := cs!"model.visual.blocks.${layer_index}.norm2.weight" },
      { name := cs!"model.visual.blocks.${layer_index}.norm2.bias" },
      { name := cs!"model.visual.blocks.${layer_index}.attn.qkv.weight" },
      { name := cs!"model.visual.blocks.${layer_index}.attn.qkv.bias" },
      { name := cs!"model.visual.blocks.${layer_index}.attn.proj.weight" },
      { name := cs!"model.visual.blocks.${layer_index}.attn.proj.bias" },
      { name := cs!"model.visual.blocks.${layer_index}.mlp.linear_fc1.weight" },
      { name := cs!"model.visual.blocks.${layer_index}.mlp.linear_fc1.bias" },
      { name := cs!"model.visual.blocks.${layer_index}.mlp.linear_fc2.weight" },
      { name := cs!"model.visual.blocks.${layer_index}.mlp.linear_fc2.bias" }]
    post := [] }]

/-- `_data/architectures/roberta-masked-lm.json` (whole file). -/
def roberta_masked_lm : List Module := [
  { pre := [{ name := cs!"roberta.embeddings.position_embeddings.weight" },
      { name := cs!"roberta.embeddings.word_embeddings.weight", isEmbed := true },
      { name := cs!"roberta.embeddings.token_type_embeddings.weight" },
      { name := cs!"roberta.embeddings.LayerNorm.weight" },
      { name := cs!"roberta.embeddings.LayerNorm.bias" },
      { name := cs!"roberta.embeddings.position_ids", optional := true, forceDtype := some cs!"int64" }]
    layers := [{ name := cs!"roberta.encoder.layer.${layer_index}.attention.output.dense.weight" },
      { name := cs!"roberta.encoder.layer.${layer_index}.attention.output.dense.bias" },
      { name := cs!"roberta.encoder.layer.${layer_index}.attention.output.LayerNorm.weight" },
      { name := cs!"roberta.encoder.layer.${layer_index}.attention.output.LayerNorm.bias" },
      { name := cs!"roberta.encoder.layer.${layer_index}.attention.self.query.weight" },
      { name := cs!"roberta.encoder.layer.${layer_index}.attention.self.query.bias" },
      { name := cs!"roberta.encoder.layer.${layer_index}.attention.self.key.weight" },
      { name := cs!"roberta.encoder.layer.${layer_index}.attention.self.key.bias" },
      { name := cs!"roberta.encoder.layer.${layer_index}.attention.self.value.weight" },
      { name := cs!"roberta.encoder.layer.${layer_index}.attention.self.value.bias" },
      { name := cs!"roberta.encoder.layer.${layer_index}.intermediate.dense.weight" },
      { name := cs!"roberta.encoder.layer.${layer_index}.intermediate.dense.bias" },
      { name := cs!"roberta.encoder.layer.${layer_index}.output.dense.weight" },
      { name := cs!"roberta.encoder.layer.${layer_index}.output.dense.bias" },
      { name := cs!"roberta.encoder.layer.${layer_index}.output.LayerNorm.weight" },
      { name := cs!"roberta.encoder.layer.${layer_index}.output.LayerNorm.bias" }]
    post := [{ name := cs!"lm_head.bias" },
      { name := cs!"lm_head.dense.weight" },
      { name := cs!"lm_head.dense.bias" },
      { name := cs!"lm_head.layer_norm.weight" },
      { name := cs!"lm_head.layer_norm.bias" },
      { name := cs!"lm_head.decoder.weight", isEmbed := true, optional := true, tiedNames := some [cs!"roberta.embeddings.word_embeddings.weight"] }] }]

/-- `_data/architectures/roberta-sequence-classification.json` (whole file). -/
def roberta_sequence_classification : List Module := [
  { pre := [{ name := cs!"roberta.embeddings.position_embeddings.weight" },
      { name := cs!"roberta.embeddings.word_embeddings.weight" },
      { name := cs!"roberta.embeddings.token_type_embeddings.weight" },
      { name := cs!"roberta.embeddings.LayerNorm.weight" },
      { name := cs!"roberta.embeddings.LayerNorm.bias" },
      { name := cs!"roberta.embeddings.position_ids", optional := true, forceDtype := some cs!"int64" }]
    layers := [{ name := cs!"roberta.encoder.layer.${layer_index}.attention.output.dense.weight" },
      { name := cs!"roberta.encoder.layer.${layer_index}.attention.output.dense.bias" },
      { name := cs!"roberta.encoder.layer.${layer_index}.attention.output.LayerNorm.weight" },
      { name := cs!"roberta.encoder.layer.${layer_index}.attention.output.LayerNorm.bias" },
      { name := cs!"roberta.encoder.layer.${layer_index}.attention.self.query.weight" },
      { name := cs!"roberta.encoder.layer.${layer_index}.attention.self.query.bias" },
      { name := cs!"roberta.encoder.layer.${layer_index}.attention.self.key.weight" },
      { name := cs!"roberta.encoder.layer.${layer_index}.attention.self.key.bias" },
      { name := cs!"roberta.encoder.layer.${layer_index}.attention.self.value.weight" },
      { name := cs!"roberta.encoder.layer.${layer_index}.attention.self.value.bias" },
      { name := cs!"roberta.encoder.layer.${layer_index}.intermediate.dense.weight" },
      { name := cs!"roberta.encoder.layer.${layer_index}.intermediate.dense.bias" },
      { name := cs!"roberta.encoder.layer.${layer_index}.output.dense.weight" },
      { name := cs!"roberta.encoder.layer.${layer_index}.output.dense.bias" },
      { name := cs!"roberta.encoder.layer.${layer_index}.output.LayerNorm.weight" },
      { name := cs!"roberta.encoder.layer.${layer_index}.output.LayerNorm.bias" }]
    post := [{ name := cs!"classifier.dense.weight" },
      { name := cs!"classifier.dense.bias" },
      { name := cs!"classifier.out_proj.weight" },
      { name := cs!"classifier.out_proj.bias" }] }]

/-- `_data/architectures/roberta-token-classification.json` (whole file). -/
def roberta_token_classification : List Module := [
  { pre := [{ name := cs!"roberta.embeddings.position_embeddings.weight" },
      { name := cs!"roberta.embeddings.word_embeddings.weight" },
      { name := cs!"roberta.embeddings.token_type_embeddings.weight" },
      { name := cs!"roberta.embeddings.LayerNorm.weight" },
      { name := cs!"roberta.embeddings.LayerNorm.bias" },
      { name := cs!"roberta.embeddings.position_ids", optional := true, forceDtype := some cs!"int64" }]
    layers := [{ name := cs!"roberta.encoder.layer.${layer_index}.attention.output.dense.weight" },
      { name := cs!"roberta.encoder.layer.${layer_index}.attention.output.dense.bias" },
      { name := cs!"roberta.encoder.layer.${layer_index}.attention.output.LayerNorm.weight" },
      { name := cs!"roberta.encoder.layer.${layer_index}.attention.output.LayerNorm.bias" },
      { name := cs!"roberta.encoder.layer.${layer_index}.attention.self.query.weight" },
      { name := cs!"roberta.encoder.layer.${layer_index}.attention.self.query.bias" },
      { name := cs!"roberta.encoder.layer.${layer_index}.attention.self.key.weight" },
      { name := cs!"roberta.encoder.layer.${layer_index}.attention.self.key.bias" },
      { name := cs!"roberta.encoder.layer.${layer_index}.attention.self.value.weight" },
      { name := cs!"roberta.encoder.layer.${layer_index}.attention.self.value.bias" },
      { name := cs!"roberta.encoder.layer.${layer_index}.intermediate.dense.weight" },
      { name := cs!"roberta.encoder.layer.${layer_index}.intermediate.dense.bias" },
      { name := cs!"roberta.encoder.layer.${layer_index}.output.dense.weight" },
      { name := cs!"roberta.encoder.layer.${layer_index}.output.dense.bias" },
      { name := cs!"roberta.encoder.layer.${layer_index}.output.LayerNorm.weight" },
      { name := cs!"roberta.encoder.layer.${layer_index}.output.LayerNorm.bias" }]
    post := [{ name := cs!"classifier.weight" },
      { name := cs!"classifier.bias" }] }]

/-- `_data/architectures/roberta.json` (whole file). -/
def roberta : List Module := [
  { pre := [{ name := cs!"roberta.embeddings.position_embeddings.weight" },
      { name := cs!"roberta.embeddings.word_embeddings.weight" },
      { name := cs!"roberta.embeddings.token_type_embeddings.weight" },
      { name := cs!"roberta.embeddings.LayerNorm.weight" },
      { name := cs!"roberta.embeddings.LayerNorm.bias" },
      { name := cs!"roberta.embeddings.position_ids", optional := true, forceDtype := some cs!"int64" }]
    layers := [{ name := cs!"roberta.encoder.layer.${layer_index}.attention.output.dense.weight" },
      { name := cs!"roberta.encoder.layer.${layer_index}.attention.output.dense.bias" },
      { name := cs!"roberta.encoder.layer.${layer_index}.attention.output.LayerNorm.weight" },
      { name := cs!"roberta.encoder.layer.${layer_index}.attention.output.LayerNorm.bias" },
      { name := cs!"roberta.encoder.layer.${layer_index}.attention.self.query.weight" },
      { name := cs!"roberta.encoder.layer.${layer_index}.attention.self.query.bias" },
      { name := cs!"roberta.encoder.layer.${layer_index}.attention.self.key.weight" },
      { name := cs!"roberta.encoder.layer.${layer_index}.attention.self.key.bias" },
      { name := cs!"roberta.encoder.layer.${layer_index}.attention.self.value.weight" },
      { name := cs!"roberta.encoder.layer.${layer_index}.attention.self.value.bias" },
      { name := cs!"roberta.encoder.layer.${layer_index}.intermediate.dense.weight" },
      { name := cs!"roberta.encoder.layer.${layer_index}.intermediate.dense.bias" },
      { name := cs!"roberta.encoder.layer.${layer_index}.output.dense.weight" },
      { name := cs!"roberta.encoder.layer.${layer_index}.output.dense.bias" },
      { name := cs!"roberta.encoder.layer.${layer_index}.output.LayerNorm.weight" },
      { name := cs!"roberta.encoder.layer.${layer_index}.output.LayerNorm.bias" }]
    post := [{ name := cs!"pooler.dense.weight" },
      { name := cs!"pooler.dense.bias" }] }]

/-- `_data/architectures/solar.json` (whole file). -/
def solar : List Module := [
  { pre := [{ name := cs!"model.embed_tokens.weight", isEmbed := true }]
    layers := [{ name := cs!"model.layers.${layer_index}.input_layernorm.weight" },
      { name := cs!"model.layers.${layer_index}.self_attn.k_proj.weight" },
      { name := cs!"model.layers.${layer_index}.self_attn.q_proj.weight" },
      { name := cs!"model.layers.${layer_index}.self_attn.v_proj.weight" },
      { name := cs!"model.layers.${layer_index}.self_attn.o_proj.weight" },
      { name := cs!"model.layers.${layer_index}.post_attention_layernorm.weight" },
      { name := cs!"model.layers.${layer_index}.mlp.gate_proj.weight" },
      { name := cs!"model.layers.${layer_index}.mlp.up_proj.weight" },
      { name := cs!"model.layers.${layer_index}.mlp.down_proj.weight" }]
    post := [{ name := cs!"model.norm.weight" },
      { name := cs!"lm_head.weight", isEmbed := true, optional := true, tiedNames := some [cs!"model.lm_head.weight"] }] }]

/-- `_data/architectures/stablelm.json` (whole file). -/
def stablelm : List Module := [
  { pre := [{ name := cs!"model.embed_tokens.weight", isEmbed := true }]
    layers := [{ name := cs!"model.layers.${layer_index}.input_layernorm.weight" },
      { name := cs!"model.layers.${layer_index}.input_layernorm.bias" },
      { name := cs!"model.layers.${layer_index}.self_attn.q_proj.weight" },
      { name := cs!"model.layers.${layer_index}.self_attn.k_proj.weight" },
      { name := cs!"model.layers.${layer_index}.self_attn.v_proj.weight" },
      { name := cs!"model.layers.${layer_index}.self_attn.o_proj.weight" },
      { name := cs!"model.layers.${layer_index}.post_attention_layernorm.weight" },
      { name := cs!"model.layers.${layer_index}.post_attention_layernorm.bias" },
      { name := cs!"model.layers.${layer_index}.mlp.up_proj.weight" },
      { name := cs!"model.layers.${layer_index}.mlp.gate_proj.weight" },
      { name := cs!"model.layers.${layer_index}.mlp.down_proj.weight" }]
    post := [{ name := cs!"model.norm.weight" },
      { name := cs!"lm_head.weight", isEmbed := true }] }]

/-- `_data/architectures/stablelm2.json` (whole file). -/
def stablelm2 : List Module := [
  { pre := [{ name := cs!"model.embed_tokens.weight", isEmbed := true }]
    layers := [{ name := cs!"model.layers.${layer_index}.input_layernorm.weight" },
      { name := cs!"model.layers.${layer_index}.input_layernorm.bias" },
      { name := cs!"model.layers.${layer_index}.mlp.down_proj.weight" },
      { name := cs!"model.layers.${layer_index}.mlp.gate_proj.weight" },
      { name := cs!"model.layers.${layer_index}.mlp.up_proj.weight" },
      { name := cs!"model.layers.${layer_index}.post_attention_layernorm.weight" },
      { name := cs!"model.layers.${layer_index}.post_attention_layernorm.bias" },
      { name := cs!"model.layers.${layer_index}.self_attn.q_proj.weight" },
      { name := cs!"model.layers.${layer_index}.self_attn.q_proj.bias", optional := true },
      { name := cs!"model.layers.${layer_index}.self_attn.k_proj.weight" },
      { name := cs!"model.layers.${layer_index}.self_attn.k_proj.bias", optional := true },
      { name := cs!"model.layers.${layer_index}.self_attn.v_proj.weight" },
      { name := cs!"model.layers.${layer_index}.self_attn.v_proj.bias", optional := true },
      { name := cs!"model.layers.${layer_index}.self_attn.o_proj.weight" }]
    post := [{ name := cs!"model.norm.weight" },
      { name := cs!"model.norm.bias" },
      { name := cs!"lm_head.weight", isEmbed := true }] }]

/-- `_data/architectures/starcoder2.json` (whole file). -/
def starcoder2 : List Module := [
  { pre := [{ name := cs!"model.embed_tokens.weight", isEmbed := true }]
    layers := [{ name := cs!"model.layers.${layer_index}.input_layernorm.bias" },
      { name := cs!"model.layers.${layer_index}.input_layernorm.weight" },
      { name := cs!"model.layers.${layer_index}.self_attn.q_proj.bias" },
      { name := cs!"model.layers.${layer_index}.self_attn.q_proj.weight" },
      { name := cs!"model.layers.${layer_index}.self_attn.k_proj.bias" },
      { name := cs!"model.layers.${layer_index}.self_attn.k_proj.weight" },
      { name := cs!"model.layers.${layer_index}.self_attn.v_proj.bias" },
      { name := cs!"model.layers.${layer_index}.self_attn.v_proj.weight" },
      { name := cs!"model.layers.${layer_index}.self_attn.o_proj.bias" },
      { name := cs!"model.layers.${layer_index}.self_attn.o_proj.weight" },
      { name := cs!"model.layers.${layer_index}.post_attention_layernorm.bias" },
      { name := cs!"model.layers.${layer_index}.post_attention_layernorm.weight" },
      { name := cs!"model.layers.${layer_index}.mlp.c_fc.bias" },
      { name := cs!"model.layers.${layer_index}.mlp.c_fc.weight" },
      { name := cs!"model.layers.${layer_index}.mlp.c_proj.bias" },
      { name := cs!"model.layers.${layer_index}.mlp.c_proj.weight" }]
    post := [{ name := cs!"lm_head.weight", isEmbed := true, optional := true, tiedNames := some [cs!"model.embed_tokens.weight"] },
      { name := cs!"model.norm.bias" },
      { name := cs!"model.norm.weight" }] }]

/-- `_data/architectures/t5.json` (whole file). -/
def t5 : List Module := [
  { pre := [{ name := cs!"decoder.embed_tokens.weight", isEmbed := true, optional := true, tiedNames := some [cs!"shared.weight", cs!"lm_head.weight", cs!"encoder.embed_tokens.weight"] }]
    layers := [{ name := cs!"decoder.block.${layer_index}.layer.0.layer_norm.weight" },
      { name := cs!"decoder.block.${layer_index}.layer.0.SelfAttention.q.weight" },
      { name := cs!"decoder.block.${layer_index}.layer.0.SelfAttention.k.weight" },
      { name := cs!"decoder.block.${layer_index}.layer.0.SelfAttention.v.weight" },
      { name := cs!"decoder.block.${layer_index}.layer.0.SelfAttention.o.weight" },
      { name := cs!"decoder.block.${layer_index}.layer.0.SelfAttention.relative_attention_bias.weight", optional := true },
      { name := cs!"decoder.block.${layer_index}.layer.1.EncDecAttention.q.weight" },
      { name := cs!"decoder.block.${layer_index}.layer.1.EncDecAttention.k.weight" },
      { name := cs!"decoder.block.${layer_index}.layer.1.EncDecAttention.v.weight" },
      { name := cs!"decoder.block.${layer_index}.layer.1.EncDecAttention.o.weight" },
      { name := cs!"decoder.block.${layer_index}.layer.1.layer_norm.weight" },
      { name := cs!"decoder.block.${layer_index}.layer.2.DenseReluDense.wi_0.weight" },
      { name := cs!"decoder.block.${layer_index}.layer.2.DenseReluDense.wi_1.weight" },
      { name := cs!"decoder.block.${layer_index}.layer.2.DenseReluDense.wo.weight" },
      { name := cs!"decoder.block.${layer_index}.layer.2.layer_norm.weight" }]
    post := [{ name := cs!"decoder.final_layer_norm.weight" }] },
  { pre := [{ name := cs!"encoder.embed_tokens.weight", isEmbed := true, optional := true, tiedNames := some [cs!"shared.weight", cs!"lm_head.weight", cs!"decoder.embed_tokens.weight"] }]
    layers := [{ name := cs!"encoder.block.${layer_index}.layer.0.layer_norm.weight" },
      { name := cs!"encoder.block.${layer_index}.layer.0.SelfAttention.q.weight" },
      { name := cs!"encoder.block.${layer_index}.layer.0.SelfAttention.k.weight" },
      { name := cs!"encoder.block.${layer_index}.layer.0.SelfAttention.v.weight" },
      { name := cs!"encoder.block.${layer_index}.layer.0.SelfAttention.o.weight" },
      { name := cs!"encoder.block.${layer_index}.layer.0.SelfAttention.relative_attention_bias.weight", optional := true },
      { name := cs!"encoder.block.${layer_index}.layer.1.DenseReluDense.wi_0.weight" },
      { name := cs!"encoder.block.${layer_index}.layer.1.DenseReluDense.wi_1.weight" },
      { name := cs!"encoder.block.${layer_index}.layer.1.DenseReluDense.wo.weight" },
      { name := cs!"encoder.block.${layer_index}.layer.1.layer_norm.weight" }]
    post := [{ name := cs!"encoder.final_layer_norm.weight" }] },
  { pre := [{ name := cs!"shared.weight", isEmbed := true }]
    layers := []
    post := [{ name := cs!"lm_head.weight", isEmbed := true, optional := true, tiedNames := some [cs!"shared.weight", cs!"encoder.embed_tokens.weight", cs!"decoder.embed_tokens.weight"] }]
    overrideNumLayers := some 0 }]

/-- `_data/architectures/whisper.json` (whole file). -/
def whisper : List Module := [
  { pre := [{ name := cs!"embed_tokens.weight", isEmbed := true },
      { name := cs!"embed_positions.weight" }]
    layers := [{ name := cs!"layers.${layer_index}.encoder_attn.k_proj.weight" },
      { name := cs!"layers.${layer_index}.encoder_attn.out_proj.bias" },
      { name := cs!"layers.${layer_index}.encoder_attn.out_proj.weight" },
      { name := cs!"layers.${layer_index}.encoder_attn.q_proj.bias" },
      { name := cs!"layers.${layer_index}.encoder_attn.q_proj.weight" },
      { name := cs!"layers.${layer_index}.encoder_attn.v_proj.bias" },
      { name := cs!"layers.${layer_index}.encoder_attn.v_proj.weight" },
      { name := cs!"layers.${layer_index}.encoder_attn_layer_norm.bias" },
      { name := cs!"layers.${layer_index}.encoder_attn_layer_norm.weight" },
      { name := cs!"layers.${layer_index}.fc1.bias" },
      { name := cs!"layers.${layer_index}.fc1.weight" },
      { name := cs!"layers.${layer_index}.fc2.bias" },
      { name := cs!"layers.${layer_index}.fc2.weight" },
      { name := cs!"layers.${layer_index}.final_layer_norm.bias" },
      { name := cs!"layers.${layer_index}.final_layer_norm.weight" },
      { name := cs!"layers.${layer_index}.self_attn.k_proj.weight" },
      { name := cs!"layers.${layer_index}.self_attn.out_proj.bias" },
      { name := cs!"layers.${layer_index}.self_attn.out_proj.weight" },
      { name := cs!"layers.${layer_index}.self_attn.q_proj.bias" },
      { name := cs!"layers.${layer_index}.self_attn.q_proj.weight" },
      { name := cs!"layers.${layer_index}.self_attn.v_proj.bias" },
      { name := cs!"layers.${layer_index}.self_attn.v_proj.weight" },
      { name := cs!"layers.${layer_index}.self_attn_layer_norm.bias" },
      { name := cs!"layers.${layer_index}.self_attn_layer_norm.weight" }]
    post := [{ name := cs!"layer_norm.bias" },
      { name := cs!"layer_norm.weight" }]
    weightPrefix := some cs!"model.decoder" },
  { pre := [{ name := cs!"embed_positions.weight" },
      { name := cs!"conv1.bias" },
      { name := cs!"conv1.weight" },
      { name := cs!"conv2.bias" },
      { name := cs!"conv2.weight" }]
    layers := [{ name := cs!"layers.${layer_index}.fc1.bias" },
      { name := cs!"layers.${layer_index}.fc1.weight" },
      { name := cs!"layers.${layer_index}.fc2.bias" },
      { name := cs!"layers.${layer_index}.fc2.weight" },
      { name := cs!"layers.${layer_index}.final_layer_norm.bias" },
      { name := cs!"layers.${layer_index}.final_layer_norm.weight" },
      { name := cs!"layers.${layer_index}.self_attn.k_proj.weight" },
      { name := cs!"layers.${layer_index}.self_attn.out_proj.bias" },
      { name := cs!"layers.${layer_index}.self_attn.out_proj.weight" },
      { name := cs!"layers.${layer_index}.self_attn.q_proj.bias" },
      { name := cs!"layers.${layer_index}.self_attn.q_proj.weight" },
      { name := cs!"layers.${layer_index}.self_attn.v_proj.bias" },
      { name := cs!"layers.${layer_index}.self_attn.v_proj.weight" },
      { name := cs!"layers.${layer_index}.self_attn_layer_norm.bias" },
      { name := cs!"layers.${layer_index}.self_attn_layer_norm.weight" }]
    post := [{ name := cs!"layer_norm.bias" },
      { name := cs!"layer_norm.weight" }]
    weightPrefix := some cs!"model.encoder." }]

end Verif.Arch.Data
