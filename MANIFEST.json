{
 "claims": [
  {
   "property": "C01",
   "status": "proved",
   "theorems": [
    "Verif.Graph.C01_executor_value",
    "Verif.Graph.C01_executor_exceptions",
    "Verif.Graph.C01_value_unique"
   ],
   "note": ""
  },
  {
   "property": "C02",
   "status": "proved",
   "theorems": [
    "Verif.Graph.C02_exactly_once",
    "Verif.Pipeline.C02_tasks",
    "Verif.Pipeline.C02_tasks_order"
   ],
   "note": ""
  },
  {
   "property": "C03",
   "status": "proved",
   "theorems": [
    "Verif.Graph.C03_arguments_available"
   ],
   "note": ""
  },
  {
   "property": "C04",
   "status": "proved",
   "theorems": [
    "Verif.Graph.C04_memory_released"
   ],
   "note": ""
  },
  {
   "property": "C05",
   "status": "partial",
   "theorems": [
    "Verif.Graph.C05_schedule_iff_acyclic",
    "Verif.Graph.C05_frontier_partial",
    "Verif.Graph.C05_target_priority_ignored"
   ],
   "note": "Existence/cycle part proved in full. Greedy choice holds except for targets and tasks with cached arguments whose queue root sorts later; C05_target_priority_ignored shows the code does not give more."
  },
  {
   "property": "C06",
   "status": "proved",
   "theorems": [
    "Verif.Universe.C06_handles_stable",
    "Verif.Universe.C06_get_handle",
    "Verif.Universe.C06_interning",
    "Verif.Universe.C06_nonrecursive_first_add_incomplete"
   ],
   "note": ""
  },
  {
   "property": "C07",
   "status": "partial",
   "theorems": [
    "Verif.MultiGPU.C07_equals_single_partial",
    "Verif.MultiGPU.C07_same_as_executor_partial",
    "Verif.MultiGPU.C07_result_lost",
    "Verif.MultiGPU.C07_per_device_target_lost",
    "Verif.MultiGPU.C07_wrong_value"
   ],
   "note": "Proved for all graphs, device counts, pop orders and interleavings when the queue is completely collected and per-device targets are accompanied by a parallel task. The code guarantees neither: C07_result_lost, C07_wrong_value and C07_per_device_target_lost are proved counterexamples to the unconditional claim."
  },
  {
   "property": "C08",
   "status": "proved",
   "theorems": [
    "Verif.MultiGPU.C08_partition",
    "Verif.MultiGPU.C08_construct_iff",
    "Verif.MultiGPU.C08_search_terminates",
    "Verif.MultiGPU.C08_overlap_possible"
   ],
   "note": ""
  },
  {
   "property": "C09",
   "status": "proved",
   "theorems": [
    "Verif.MultiGPU.C09_assignment"
   ],
   "note": ""
  },
  {
   "property": "C10",
   "status": "proved",
   "theorems": [
    "Verif.Writer.C10_read_back",
    "Verif.Writer.C10_blank_basename",
    "Verif.Writer.C10_missing_name",
    "Verif.Writer.C10_duplicate_name_ambiguous"
   ],
   "note": ""
  },
  {
   "property": "C11",
   "status": "proved",
   "theorems": [
    "Verif.Writer.C11_shard_limit"
   ],
   "note": ""
  },
  {
   "property": "C12",
   "status": "proved",
   "theorems": [
    "Verif.Writer.C12_index_exact",
    "Verif.Writer.C12_name_format"
   ],
   "note": ""
  },
  {
   "property": "C13",
   "status": "proved",
   "theorems": [
    "Verif.Writer.C13_crash_safe",
    "Verif.Writer.C13_crash_safe_sync"
   ],
   "note": ""
  },
  {
   "property": "C14",
   "status": "proved",
   "theorems": [
    "Verif.Writer.C14_async_same",
    "Verif.Writer.C14_no_early_rename"
   ],
   "note": ""
  },
  {
   "property": "C15",
   "status": "proved",
   "theorems": [
    "Verif.Writer.C15_history_independent",
    "Verif.Writer.C15_condition_needed"
   ],
   "note": ""
  },
  {
   "property": "C16",
   "status": "partial",
   "theorems": [
    "Verif.Archive.C16_read_bytes_partial",
    "Verif.Archive.C16_read_bytes",
    "Verif.Archive.C16_failed_open_poisons",
    "Verif.Archive.C16_tensor_elements",
    "Verif.Archive.C16_strided_view_truncated",
    "Verif.Archive.C16_scalar_fails"
   ],
   "note": "Bytes returned are exactly the requested range for every sequence of successful opens; C16_failed_open_poisons, C16_strided_view_truncated and C16_scalar_fails are proved counterexamples to the unconditional claim."
  },
  {
   "property": "C17",
   "status": "proved",
   "theorems": [
    "Verif.Unpickle.C17_only_allowed",
    "Verif.Unpickle.C17_foreign_stops",
    "Verif.Unpickle.C17_allowed_resolved",
    "Verif.Unpickle.C17_storage_only"
   ],
   "note": ""
  },
  {
   "property": "C18",
   "status": "proved",
   "theorems": [
    "Verif.LoadTask.C18_type_names",
    "Verif.LoadTask.C18_first_name",
    "Verif.LoadTask.C18_read_error",
    "Verif.LoadTask.C18_converted",
    "Verif.LoadTask.C18_missing",
    "Verif.LoadTask.C18_dtype"
   ],
   "note": ""
  },
  {
   "property": "C19",
   "status": "partial",
   "theorems": [
    "Verif.LoadTask.C19_gather_partial",
    "Verif.LoadTask.C19_own_tensors",
    "Verif.LoadTask.C19_override_lost"
   ],
   "note": "Exact for all references whose parts contain no separators and without architecture override (and weight names without \":\"); C19_override_lost is a proved counterexample to the unconditional claim."
  },
  {
   "property": "C20",
   "status": "proved",
   "theorems": [
    "Verif.Config.C20_segment",
    "Verif.Config.C20_points",
    "Verif.Config.C20_single",
    "Verif.Config.C20_bounds",
    "Verif.Config.C20_words",
    "Verif.Config.C20_empty"
   ],
   "note": ""
  },
  {
   "property": "C21",
   "status": "proved",
   "theorems": [
    "Verif.Config.C21_first_match",
    "Verif.Config.C21_no_match"
   ],
   "note": ""
  },
  {
   "property": "C22",
   "status": "proved",
   "theorems": [
    "Verif.Config.C22_most_specific",
    "Verif.Config.C22_no_value",
    "Verif.Config.C22_malformed",
    "Verif.Config.C22_base_model",
    "Verif.Plan.C22_required_fails"
   ],
   "note": "C22_required_fails: a setting that the method requires for each model, given neither for a model nor for all, makes the merge fail before anything is written."
  },
  {
   "property": "C23",
   "status": "proved",
   "theorems": [
    "Verif.Config.C23_module",
    "Verif.Config.C23_config"
   ],
   "note": ""
  },
  {
   "property": "C24",
   "status": "partial",
   "theorems": [
    "Verif.ModelRef.C24_parse_print",
    "Verif.ModelRef.C24_never_alike_partial",
    "Verif.ModelRef.C24_rejected_iff",
    "Verif.ModelRef.C24_print_parse",
    "Verif.ModelRef.C24_serialize",
    "Verif.ModelRef.C24_override_prints_alike",
    "Verif.ModelRef.C24_empty_revision_prints_alike",
    "Verif.ModelRef.C24_plus_in_path_becomes_adapter"
   ],
   "note": "Round trips and rejection proved in full; distinct printing holds for references without override, empty revision or separators in their parts, and is refuted otherwise."
  },
  {
   "property": "C25",
   "status": "proved",
   "theorems": [
    "Verif.ModelRef.C25_get_set",
    "Verif.ModelRef.C25_others_unchanged",
    "Verif.ModelRef.C25_set_succeeds_iff"
   ],
   "note": ""
  },
  {
   "property": "C26",
   "status": "partial",
   "theorems": [
    "Verif.ModelRef.C26_plain",
    "Verif.ModelRef.C26_suffix",
    "Verif.ModelRef.C26_accepted_partial",
    "Verif.ModelRef.C26_signed_accepted"
   ],
   "note": "All digit strings with or without suffix are accepted with the right value and everything accepted is an integer literal (python int) with a suffix; C26_signed_accepted refutes the claim that only digits are accepted."
  },
  {
   "property": "C27",
   "status": "partial",
   "theorems": [
    "Verif.Plan.C27_layers_partial",
    "Verif.Plan.C27_config_count_partial",
    "Verif.Plan.C27_repeated_model_dropped",
    "Verif.Plan.C27_reversed_range_count"
   ],
   "note": "Layer numbering and inputs exact for every slice whose sources are distinct models; count in the output configuration exact unless a range runs backwards. C27_repeated_model_dropped and C27_reversed_range_count are proved counterexamples to the unconditional claim."
  },
  {
   "property": "C28",
   "status": "proved",
   "theorems": [
    "Verif.Plan.C28_unequal_rejected",
    "Verif.Plan.C28_never_truncated"
   ],
   "note": ""
  },
  {
   "property": "C29",
   "status": "proved",
   "theorems": [
    "Verif.WholeMerge.C29_modules",
    "Verif.Plan.C29_models",
    "Verif.Plan.C29_base_once",
    "Verif.Plan.C29_slices"
   ],
   "note": ""
  },
  {
   "property": "C30",
   "status": "proved",
   "theorems": [
    "Verif.Plan.C30_depth"
   ],
   "note": ""
  },
  {
   "property": "C31",
   "status": "partial",
   "theorems": [
    "Verif.Plan.C31_pre_weights",
    "Verif.Plan.C31_post_weights_partial",
    "Verif.Plan.C31_sources_dropped"
   ],
   "note": "Proved in full for weights before the first layer; after the last layer under the condition that the first slice has at least as many sources as the last. C31_sources_dropped is a proved counterexample otherwise."
  },
  {
   "property": "C32",
   "status": "proved",
   "theorems": [
    "Verif.Plan.C32_every_weight",
    "Verif.Plan.C32_finalized_last",
    "Verif.Plan.C32_checkpoint_complete"
   ],
   "note": ""
  },
  {
   "property": "C33",
   "status": "proved",
   "theorems": [
    "Verif.Merge.C33_weighted_mean",
    "Verif.Merge.C33_shapes_rejected",
    "Verif.Merge.C33_order",
    "Verif.Merge.C33_scale",
    "Verif.Merge.C33_identical",
    "Verif.Merge.C33_between"
   ],
   "note": ""
  },
  {
   "property": "C34",
   "status": "proved",
   "theorems": [
    "Verif.Sphere.C34_formula",
    "Verif.Sphere.C34_endpoints",
    "Verif.Sphere.C34_symmetric",
    "Verif.Sphere.C34_unit",
    "Verif.Sphere.C34_inputs",
    "Verif.Sphere.C34_base_first"
   ],
   "note": ""
  },
  {
   "property": "C35",
   "status": "proved",
   "theorems": [
    "Verif.Merge.C35_formula",
    "Verif.Merge.C35_no_models",
    "Verif.Merge.C35_lambda_zero",
    "Verif.Merge.C35_one_model",
    "Verif.Merge.C35_base_missing",
    "Verif.Merge.C35_small_embedding"
   ],
   "note": "C35_small_embedding: a model whose embedding matrix is smaller than that of the base makes the merge fail."
  },
  {
   "property": "C36",
   "status": "proved",
   "theorems": [
    "Verif.Merge.C36_formula",
    "Verif.Merge.C36_sign_and_mean",
    "Verif.Merge.C36_no_influence"
   ],
   "note": ""
  },
  {
   "property": "C37",
   "status": "proved",
   "theorems": [
    "Verif.Sparsify.C37_keeps_largest",
    "Verif.Sparsify.C37_extremes",
    "Verif.Sparsify.C37_sparsify"
   ],
   "note": ""
  },
  {
   "property": "C38",
   "status": "partial",
   "theorems": [
    "Verif.Sparsify.C38_keeps_middle_partial",
    "Verif.Sparsify.C38_everything_dropped",
    "Verif.Sparsify.C38_sparsify_partial"
   ],
   "note": "Exact kept set and counts whenever gamma*n >= 1; C38_everything_dropped proves that with gamma*n < 1 the whole tensor is dropped."
  },
  {
   "property": "C39",
   "status": "proved",
   "theorems": [
    "Verif.Sparsify.C39_norm_preserved",
    "Verif.Sparsify.C39_otherwise_masked",
    "Verif.Sparsify.C39_every_method"
   ],
   "note": ""
  },
  {
   "property": "C40",
   "status": "partial",
   "theorems": [
    "Verif.Sparsify.C40_probabilities_partial",
    "Verif.Sparsify.C40_refused",
    "Verif.Sparsify.C40_single_column",
    "Verif.Sparsify.C40_negative_epsilon",
    "Verif.Sparsify.C40_sparsify_partial"
   ],
   "note": "Keep probabilities are monotone in magnitude and within [density-eps, density+eps] for rows of at least two entries with non-negative epsilon; C40_single_column and C40_negative_epsilon are proved counterexamples otherwise."
  },
  {
   "property": "C41",
   "status": "partial",
   "theorems": [
    "Verif.Merge.C41_moves_at_most",
    "Verif.Merge.C41_swaps_near_partial",
    "Verif.Merge.C41_tiny_t",
    "Verif.Merge.C41_count"
   ],
   "note": "Bounded move for every t >= 0; complete swap of near entries for t >= 1e-6. C41_tiny_t is a proved counterexample for smaller t."
  },
  {
   "property": "C42",
   "status": "proved",
   "theorems": [
    "Verif.Sphere.C42_mean_bounds",
    "Verif.Sphere.C42_formula",
    "Verif.Sphere.C42_lines",
    "Verif.Sphere.C42_ratio",
    "Verif.Sphere.C42_between",
    "Verif.Sphere.C42_too_few",
    "Verif.Sphere.C42_opposite"
   ],
   "note": "The ratio is undefined when 1+(N-1)cos = 0; C42_opposite proves that two opposite models give a non-finite result."
  },
  {
   "property": "C43",
   "status": "proved",
   "theorems": [
    "Verif.Merge.C43_passthrough"
   ],
   "note": ""
  },
  {
   "property": "C44",
   "status": "proved",
   "theorems": [
    "Verif.Tensor.C44_common_submatrix",
    "Verif.Tensor.C44_others_untouched",
    "Verif.Tensor.C44_karcher_not_cut"
   ],
   "note": "C44_karcher_not_cut proves that the karcher method is an exception: its rectification acts on a temporary list."
  },
  {
   "property": "C45",
   "status": "partial",
   "theorems": [
    "Verif.Merge.C45_shape_partial",
    "Verif.Merge.C45_value_partial",
    "Verif.Merge.C45_wrong_shape"
   ],
   "note": "Shape and unselected entries proved when select_topk >= 1 or at least one varying entry is selected; C45_wrong_shape proves that otherwise the result has an additional dimension."
  },
  {
   "property": "C46",
   "status": "proved",
   "theorems": [
    "Verif.Merge.C46_ram",
    "Verif.Merge.C46_ramplus"
   ],
   "note": ""
  },
  {
   "property": "C47",
   "status": "proved",
   "theorems": [
    "Verif.Sphere.C47_score",
    "Verif.Sphere.C47_picks",
    "Verif.Sphere.C47_identical",
    "Verif.Sphere.C47_inputs"
   ],
   "note": ""
  },
  {
   "property": "C48",
   "status": "proved",
   "theorems": [
    "Verif.Merge.C48_aligned",
    "Verif.Merge.C48_base_required",
    "Verif.Merge.C48_order_not_kept",
    "Verif.Merge.C48_base_not_first"
   ],
   "note": "Alignment and required base proved; C48_order_not_kept and C48_base_not_first prove which order guarantees decorated functions do not get."
  },
  {
   "property": "C49",
   "status": "partial",
   "theorems": [
    "Verif.Tok.C49_union",
    "Verif.Tok.C49_complete",
    "Verif.Tok.C49_added_lost",
    "Verif.Tok.C49_stripped"
   ],
   "note": "C49_union and C49_complete prove it for models whose vocabulary size is known; C49_added_lost proves that added tokens are lost when the configured size cannot be read."
  },
  {
   "property": "C50",
   "status": "partial",
   "theorems": [
    "Verif.Tok.C50_permutation",
    "Verif.Tok.C50_build_partial",
    "Verif.Tok.C50_base_gains_tokens"
   ],
   "note": "Proved for every source except tokens added to the base tokenizer object itself; C50_base_gains_tokens proves that these count as present in the base model."
  },
  {
   "property": "C51",
   "status": "proved",
   "theorems": [
    "Verif.Tok.C51_rows",
    "Verif.Tok.C51_succeeds"
   ],
   "note": "Row contents for every successful run (C51_rows) and success under stated conditions on permutations and sources (C51_succeeds)."
  },
  {
   "property": "C52",
   "status": "partial",
   "theorems": [
    "Verif.Tok.C52_configured_zero_fails",
    "Verif.Tok.C52_absent_token_fails"
   ],
   "note": "Refuted: both cases of the statement always end in an error (C52_configured_zero_fails, C52_absent_token_fails); there is no case in which the property holds."
  },
  {
   "property": "C53",
   "status": "proved",
   "theorems": [
    "Verif.Tok.C53_padding"
   ],
   "note": ""
  },
  {
   "property": "C54",
   "status": "proved",
   "theorems": [
    "Verif.Tok.C54_prefixes",
    "Verif.Tok.C54_normalize",
    "Verif.Tok.C54_vocabulary",
    "Verif.Tok.C54_special_collision"
   ],
   "note": "C54_special_collision additionally shows that special tokens of one kind collide."
  },
  {
   "property": "C55",
   "status": "partial",
   "theorems": [
    "Verif.MultiMerge.C55_reference",
    "Verif.MultiMerge.C55_separator",
    "Verif.MultiMerge.C55_patch",
    "Verif.MultiMerge.C55_refused",
    "Verif.MultiMerge.C55_template_crashes",
    "Verif.MultiMerge.C55_any_string",
    "Verif.MultiMerge.C55_tasks",
    "Verif.MultiMerge.C55_order",
    "Verif.MultiMerge.C55_prepare",
    "Verif.MultiMerge.C55_out_path",
    "Verif.MultiMerge.C55_distinct_paths",
    "Verif.MultiMerge.C55_ref_dict"
   ],
   "note": "Order, cycles, duplicates and the replaced references are proved for all documents (C55_prepare, C55_tasks, C55_order, C55_patch). \"Nothing else changes\" is false for strings that are not model references (C55_any_string, C55_separator) and documents with unreadable strings are refused (C55_template_crashes)."
  },
  {
   "property": "C56",
   "status": "partial",
   "theorems": [
    "Verif.Raw.C56_names",
    "Verif.Raw.C56_union_fails",
    "Verif.Raw.C56_values",
    "Verif.Raw.C56_succeeds",
    "Verif.Raw.C56_base_extra_ignored",
    "Verif.Raw.C56_separator"
   ],
   "note": "Intersection and strict modes are characterised exactly (C56_names, C56_values, C56_succeeds). The union mode is refuted: C56_union_fails proves that it always raises on mismatching sets; C56_base_extra_ignored shows the base model is left out of the comparison in one direction."
  },
  {
   "property": "C57",
   "status": "partial",
   "theorems": [
    "Verif.Convert.C57_packed",
    "Verif.Moe.C57_deepseek",
    "Verif.Moe.C57_deepseek_finishes",
    "Verif.Moe.C57_shared_not_loaded",
    "Verif.Moe.C57_qwen",
    "Verif.Moe.C57_mixtral_finishes",
    "Verif.Moe.C57_qwen3_finishes",
    "Verif.Moe.C57_qwen_finishes",
    "Verif.Moe.C57_shipped_addable",
    "Verif.Moe.C57_deepseek_distinct",
    "Verif.Moe.C57_qwen_distinct",
    "Verif.Moe.C57_mixtral_distinct",
    "Verif.Moe.C57_qwen3_distinct",
    "Verif.Moe.C57_mixtral",
    "Verif.Moe.C57_qwen3",
    "Verif.Moe.C57_router_rows",
    "Verif.Moe.C57_shipped_names"
   ],
   "note": "For the four layouts, any number of experts and layers: a finished run saves exactly the experts in their slots, the shared expert, the base model and the routers (C57_deepseek, C57_qwen, C57_mixtral, C57_qwen3), no name twice (..._distinct), with row i of each router made for expert i (C57_router_rows); the hypotheses on names hold for the shipped definitions (C57_shipped_names). The part on shared experts is refuted: the model of a shared expert is not loaded unless it is the base model or an expert, so such a configuration always fails (C57_shared_not_loaded). What the library converters do is assumed (PacksExperts). When a run finishes: C57_mixtral_finishes, C57_qwen3_finishes, C57_qwen_finishes."
  },
  {
   "property": "C58",
   "status": "partial",
   "theorems": [
    "Verif.Moe.C58_refused_partial",
    "Verif.Moe.C58_uniform_random",
    "Verif.Moe.C58_unknown_mode",
    "Verif.Moe.C58_accepted_routers"
   ],
   "note": "Exact decision proved with gate_mode \"random\" as the random routing (C58_refused_partial), accepted configurations get their routers (C58_accepted_routers). Missing: gate_mode \"uniform_random\" is random, too, but prompts are demanded (C58_uniform_random)."
  },
  {
   "property": "C59",
   "status": "partial",
   "theorems": [
    "Verif.Lora.C59_product",
    "Verif.Lora.C59_error",
    "Verif.Lora.C59_best",
    "Verif.Lora.C59_exact",
    "Verif.Lora.C59_full_rank",
    "Verif.Lora.C59_rank",
    "Verif.Lora.C59_embedding",
    "Verif.Lora.C59_recorded_partial",
    "Verif.Lora.C59_config_total",
    "Verif.Lora.C59_nested_names",
    "Verif.Lora.C59_restores_partial"
   ],
   "note": "Proved for every singular value decomposition (IsSvd, an oracle): the product is the truncation (C59_product), its squared error the dropped singular values (C59_error), no matrix of that rank is closer (C59_best, Eckart-Young), equality at full rank (C59_exact, C59_full_rank), rank choice (C59_rank), embeddings (C59_embedding), and base plus adapter restores the module (C59_restores_partial). Recorded ranks are right if last parts of names identify modules (C59_recorded_partial); PEFT reads others for nested names (C59_nested_names). What PEFT does with the configuration is assumed (peftValue)."
  },
  {
   "property": "C60",
   "status": "partial",
   "theorems": [
    "Verif.Surgeon.C60_byte_partial",
    "Verif.Surgeon.C60_byte_sign",
    "Verif.Surgeon.C60_rows",
    "Verif.Surgeon.C60_batches",
    "Verif.Surgeon.C60_noise",
    "Verif.Surgeon.C60_accepted",
    "Verif.Surgeon.C60_mean_noise_fails",
    "Verif.Surgeon.C60_special_zero",
    "Verif.Surgeon.C60_run_partial",
    "Verif.Surgeon.C60_swapped",
    "Verif.Surgeon.C60_no_head"
   ],
   "note": "Rows exact for every pair of vocabularies (C60_rows), independent of the batch size (C60_batches), success (C60_accepted), and the whole run of the command (C60_run_partial). \"Enabled for this matrix\" is refuted: matching enabled for one of the two matrices acts on the other one (C60_swapped). Also refuted: byte tokens with a sign crash (C60_byte_sign), the mean with noise or scaling fails (C60_mean_noise_fails), special tokens of one kind lose their rows (C60_special_zero), architectures without an output matrix fail (C60_no_head). The approximation methods are a parameter here, see C66, C81."
  },
  {
   "property": "C61",
   "status": "partial",
   "theorems": [
    "Verif.Genome.C61_slices",
    "Verif.Genome.C61_values",
    "Verif.Genome.C61_smooth",
    "Verif.Genome.C61_slerp_partial",
    "Verif.Genome.C61_slerp_extra_base",
    "Verif.Genome.C61_slerp_single",
    "Verif.Genome.C61_vector",
    "Verif.Genome.C61_options",
    "Verif.Genome.C61_refused",
    "Verif.Genome.C61_groups_unchecked",
    "Verif.Genome.C61_initial",
    "Verif.Genome.C61_linear_extra_base",
    "Verif.Genome.C61_planned"
   ],
   "note": "Proved for every genotype of the right shape: coverage (C61_slices), what the merge reads for every tensor (C61_values, C61_smooth), the plan made of it (C61_planned), vectors (C61_vector), wrong shapes (C61_refused), the initial genotype, and slerp when a base model is absent or among the models. False with a base model outside the models: slerp slices then have three sources and cannot be merged (C61_slerp_extra_base), linear merges lack a weight (C61_linear_extra_base). Without granularity the number of layer groups is not checked (C61_groups_unchecked)."
  },
  {
   "property": "C62",
   "status": "partial",
   "theorems": [
    "Verif.Fill.C62_prefix_best",
    "Verif.Fill.C62_written",
    "Verif.Fill.C62_prefix_found",
    "Verif.Fill.C62_filled",
    "Verif.Fill.C62_run",
    "Verif.Fill.C62_shared_ignored",
    "Verif.Fill.C62_order_matters",
    "Verif.Fill.C62_directory_partial",
    "Verif.Fill.C62_stale_index"
   ],
   "note": "The names and values written are characterised for all models (C62_written, C62_prefix_best) and a submodel that sits under one prefix only is put there completely (C62_filled). Refuted: names shared without the prefix are not replaced (C62_shared_ignored), ties depend on the order of a set (C62_order_matters), a copied index file can make the result unreadable (C62_stale_index)."
  },
  {
   "property": "C63",
   "status": "partial",
   "theorems": [
    "Verif.Arch.C63_all_or_none",
    "Verif.Arch.C63_replaces",
    "Verif.Arch.C63_plain",
    "Verif.Arch.C63_prefix",
    "Verif.Arch.C63_fills",
    "Verif.Arch.C63_no_layer",
    "Verif.Arch.C63_weight",
    "Verif.Arch.C63_module",
    "Verif.Arch.C63_model",
    "Verif.Arch.C63_prefixed",
    "Verif.Arch.C63_glm4_layer",
    "Verif.Arch.C63_shipped",
    "Verif.Arch.C63_repeats",
    "Verif.Arch.C63_qwen_vl",
    "Verif.Arch.C63_afmoe",
    "Verif.Arch.C63_glm4moe"
   ],
   "note": "Distinctness is proved for every shipped architecture definition and every layer count (C63_shipped), for AFMoE and GLM4-MoE with any number of experts (C63_afmoe, C63_glm4moe), replacement of placeholders for every template (C63_all_or_none, C63_replaces), prefixes (C63_prefix). Refuted for Qwen2-VL and Qwen2.5-VL, whose projector weights are listed twice for every layer count (C63_qwen_vl), and for any template without a placeholder in a module with two layers or more (C63_repeats)."
  },
  {
   "property": "C64",
   "status": "partial",
   "theorems": [
    "Verif.Resume.C64_complete_partial",
    "Verif.Resume.C64_distinct_entries",
    "Verif.Resume.C64_own_entry",
    "Verif.Resume.C64_crash_sticks",
    "Verif.Resume.C64_dtype_ignored",
    "Verif.Resume.C64_collision"
   ],
   "note": "Refuted for interrupted runs (C64_crash_sticks), other data types and checksum collisions; proved without interruptions and collisions (C64_complete_partial)."
  },
  {
   "property": "C65",
   "status": "proved",
   "theorems": [
    "Verif.Scripts.C65_layers",
    "Verif.Scripts.C65_slices",
    "Verif.Scripts.C65_accepted",
    "Verif.Scripts.C65_random_count"
   ],
   "note": ""
  },
  {
   "property": "C66",
   "status": "proved",
   "theorems": [
    "Verif.Omp.C66_distinct"
   ],
   "note": "For any position function that finds a maximum (C66_distinct)."
  },
  {
   "property": "C67",
   "status": "partial",
   "theorems": [
    "Verif.Writer.C67_used_directory_partial",
    "Verif.Writer.C67_stale_index_shadows",
    "Verif.Writer.C67_other_format_shadows"
   ],
   "note": "Proved for every directory without an index file of the format written (or when the new model gets its own) and, for pickle files, without a safetensors model (C67_used_directory_partial); refuted otherwise (C67_stale_index_shadows, C67_other_format_shadows)."
  },
  {
   "property": "C68",
   "status": "partial",
   "theorems": [
    "Verif.Plan.C68_optional_partial",
    "Verif.Plan.C68_aliases_crash"
   ],
   "note": "Proved for weights without alternative names; C68_aliases_crash proves that planning fails for all others."
  },
  {
   "property": "C69",
   "status": "proved",
   "theorems": [
    "Verif.Sphere.C69_two_models",
    "Verif.Sphere.C69_with_base",
    "Verif.Sphere.C69_ends_and_order",
    "Verif.Sphere.C69_count",
    "Verif.Sphere.C69_lines",
    "Verif.Sphere.C69_unit"
   ],
   "note": ""
  },
  {
   "property": "C70",
   "status": "partial",
   "theorems": [
    "Verif.Sphere.C70_result",
    "Verif.Sphere.C70_length",
    "Verif.Sphere.C70_base",
    "Verif.Sphere.C70_inputs",
    "Verif.Sphere.C70_cancelling",
    "Verif.Sphere.C70_not_slerp"
   ],
   "note": "C70_not_slerp refutes the claim: the tangent step cancels, the result is the normalised chord mean. Proved: exact result, length, base handling and degenerate cases. Missing (false of the code): agreement with spherical interpolation."
  },
  {
   "property": "C71",
   "status": "partial",
   "theorems": [
    "Verif.Sphere.C71_length",
    "Verif.Sphere.C71_negligible",
    "Verif.Sphere.C71_identical",
    "Verif.Sphere.C71_opposite",
    "Verif.Sphere.C71_order",
    "Verif.Sphere.C71_merge"
   ],
   "note": "Length, identical inputs, order (unless directions cancel) proved. C71_opposite: two opposite inputs are not finite; C71_negligible: identical but negligible inputs become zeros."
  },
  {
   "property": "C72",
   "status": "proved",
   "theorems": [
    "Verif.Sparsify.C72_random"
   ],
   "note": ""
  },
  {
   "property": "C73",
   "status": "partial",
   "theorems": [
    "Verif.Raw.C73_global",
    "Verif.Raw.C73_unset_fails",
    "Verif.Raw.C73_zero_ignored",
    "Verif.Raw.C73_own_partial"
   ],
   "note": "Refuted for models without an own setting and for zeros (C73_unset_fails, C73_zero_ignored); proved for parameters of the whole merge and for own values other than zero."
  },
  {
   "property": "C74",
   "status": "partial",
   "theorems": [
    "Verif.Resume.C74_weights",
    "Verif.Resume.C74_unfinished",
    "Verif.Resume.C74_forced_rerun"
   ],
   "note": "Proved for the weights (C74_weights); refuted for files written after the configuration (C74_unfinished) and after forced reruns (C74_forced_rerun)."
  },
  {
   "property": "C75",
   "status": "partial",
   "theorems": [
    "Verif.Convert.C75_natural_order",
    "Verif.Convert.C75_stars",
    "Verif.Convert.C75_check_sound",
    "Verif.Convert.C75_check_complete",
    "Verif.Convert.C75_single_expert",
    "Verif.Convert.C75_incomplete_packed"
   ],
   "note": "Order of numbered parts proved for all numbers (C75_natural_order); a positive verdict is proved to be honoured by loading (C75_check_sound) and to mean that every part is there for the same members (C75_check_complete). The converse is refuted: groups with one member load but are judged unobtainable (C75_single_expert); groups with missing members are put together out of step when loaded (C75_incomplete_packed)."
  },
  {
   "property": "C76",
   "status": "partial",
   "theorems": [
    "Verif.Moe.C76_chosen",
    "Verif.Moe.C76_none",
    "Verif.Moe.C76_chosen_not_written"
   ],
   "note": "The choice is characterised exactly (C76_chosen, C76_none). That a chosen layout can be written is refuted by a configuration whose shared expert is another model: C76_chosen_not_written."
  },
  {
   "property": "C77",
   "status": "partial",
   "theorems": [
    "Verif.Scripts.C77_out_of_reach",
    "Verif.Scripts.C77_existing_layers_partial",
    "Verif.Scripts.C77_reachable_partial",
    "Verif.Scripts.C77_beyond",
    "Verif.Scripts.C77_unweighted"
   ],
   "note": "Refuted: the last layers are out of reach for weights below one (C77_out_of_reach), weights above one can pick missing layers (C77_beyond), models without weights are dropped (C77_unweighted). Proved: for weights up to one only existing layers are used, and those below the count can come up."
  },
  {
   "property": "C78",
   "status": "proved",
   "theorems": [
    "Verif.Scripts.C78_faithful",
    "Verif.Scripts.C78_accepted"
   ],
   "note": ""
  },
  {
   "property": "C79",
   "status": "partial",
   "theorems": [
    "Verif.Lora.C79_unlisted_partial",
    "Verif.Lora.C79_listed_partial",
    "Verif.Lora.C79_listed_fails",
    "Verif.Lora.C79_not_uniform"
   ],
   "note": "Exact for models whose modules with one last name are treated alike (C79_unlisted_partial, C79_listed_partial). Refuted: modules listed on the command line make the run fail when another must be added (C79_listed_fails); modules sharing a last name are treated by the first (C79_not_uniform)."
  },
  {
   "property": "C80",
   "status": "partial",
   "theorems": [
    "Verif.Lora.C80_full",
    "Verif.Lora.C80_lora_partial",
    "Verif.Lora.C80_optional_bias_fails",
    "Verif.Lora.C80_all",
    "Verif.Lora.C80_distinct"
   ],
   "note": "Names and values exact (C80_full, C80_lora_partial), no name twice (C80_distinct). Refuted for decomposed modules: an optional bias that is missing makes the extraction fail (C80_optional_bias_fails), e.g. for Granite."
  },
  {
   "property": "C81",
   "status": "proved",
   "theorems": [
    "Verif.Omp.C81_best",
    "Verif.Omp.C81_finite",
    "Verif.Omp.C81_greedy",
    "Verif.Omp.C81_monotone",
    "Verif.Omp.C81_exact",
    "Verif.Omp.C81_progress"
   ],
   "note": "Over the reals; WellPosed says that no picked point comes within eps of the combinations of the earlier ones (or, up to the reorthogonalization interval, lies in their span); C81_progress and orthonormal_apart give sufficient conditions. torch.max and torch.linalg.qr are parameters with hypotheses."
  },
  {
   "property": "C82",
   "status": "partial",
   "theorems": [
    "Verif.Landmarks.C82_neighbours",
    "Verif.Landmarks.C82_distance",
    "Verif.Landmarks.C82_distance_partial",
    "Verif.Landmarks.C82_far",
    "Verif.Landmarks.C82_cosine_partial",
    "Verif.Landmarks.C82_cosine_blows_up",
    "Verif.Landmarks.C82_barycentric",
    "Verif.Landmarks.C82_least_squares",
    "Verif.Landmarks.C82_affine"
   ],
   "note": "Neighbours (C82_neighbours), distance weights (C82_distance, C82_distance_partial if a neighbour is within 10^6), optimality of barycentric and least squares weights (C82_barycentric, C82_least_squares), exactness and affine maps (C82_affine). Refuted: neighbours all very far away give a sum below one (C82_far), weights by cosine similarity are proper only if the similarities sum to 10^-6 at least (C82_cosine_partial), otherwise they can be a million times too large (C82_cosine_blows_up). torch.topk and lstsq are parameters with hypotheses."
  },
  {
   "property": "C83",
   "status": "partial",
   "theorems": [
    "Verif.Subword.C83_rows_partial",
    "Verif.Subword.C83_succeeds",
    "Verif.Subword.C83_weighted_reversed",
    "Verif.Subword.C83_single",
    "Verif.Subword.C83_same"
   ],
   "note": "Exact for sum, mean, first/last (C83_rows_partial), success (C83_succeeds), single pieces (C83_single), equal rows (C83_same). Refuted for the weighted mean: input and output embeddings use the weights meant for the other (C83_weighted_reversed)."
  },
  {
   "property": "C84",
   "status": "partial",
   "theorems": [
    "Verif.Pca.C84_wrong_way",
    "Verif.Pca.C84_symmetric_partial",
    "Verif.Pca.C84_inverse",
    "Verif.Pca.C84_rotated_partial",
    "Verif.Pca.C84_reversed"
   ],
   "note": "Proved when the principal variances of the shared embeddings are positive and different (C84_rotated_partial) and when the products are symmetric (C84_symmetric_partial). Refuted in general: the rotation is the best for the opposite direction (C84_wrong_way), so targets are rotated the other way (C84_inverse, C84_reversed)."
  },
  {
   "property": "C85",
   "status": "partial",
   "theorems": [
    "Verif.Evolve.C85_own_result",
    "Verif.Evolve.C85_once",
    "Verif.Evolve.C85_limits",
    "Verif.Evolve.C85_kept",
    "Verif.Evolve.C85_in_order",
    "Verif.Evolve.C85_never_stuck",
    "Verif.Evolve.C85_finishes",
    "Verif.Evolve.C85_failure_silences",
    "Verif.Evolve.C85_no_accelerator",
    "Verif.Evolve.C85_starvation"
   ],
   "note": "Transition system over submissions and rounds of the loop. Own result, once, limits, nothing forgotten, order, progress and completion proved for every history (C85_own_result, C85_once, C85_limits, C85_kept, C85_in_order, C85_never_stuck, C85_finishes). Refuted: one failed or invalid genotype leaves all callers waiting for ever (C85_failure_silences); ready models are taken last in first out, so one can wait for ever while others pass (C85_starvation); a count of zero accelerators is accepted and nobody is answered (C85_no_accelerator)."
  },
  {
   "property": "C86",
   "status": "partial",
   "theorems": [
    "Verif.Evolve.C86_score",
    "Verif.Evolve.C86_order",
    "Verif.Evolve.C86_run_once",
    "Verif.Evolve.C86_maximizes",
    "Verif.Evolve.C86_invalid_aborts",
    "Verif.Evolve.C86_best",
    "Verif.Evolve.C86_temporary"
   ],
   "note": "Score, order, single run, costs, best (C86_score, C86_order, C86_run_once, C86_maximizes, C86_best), temporary models (C86_temporary). Refuted: a score of None aborts the whole population (C86_invalid_aborts); a failed merge leaves its directory behind (second part of C86_temporary)."
  },
  {
   "property": "C87",
   "status": "proved",
   "theorems": [
    "Verif.Evolve.C87_refused",
    "Verif.Evolve.C87_warned"
   ],
   "note": "C87_refused, C87_warned."
  },
  {
   "property": "C88",
   "status": "partial",
   "theorems": [
    "Verif.Evolve.C88_known",
    "Verif.Evolve.C88_history",
    "Verif.Evolve.C88_leaks"
   ],
   "note": "Proved if every merge gives the same set of tensors (C88_history; C88_known says when loading succeeds). Refuted otherwise: optional tensors keep the value of the genotype before (C88_leaks). Packed parameters of vLLM are in C126."
  },
  {
   "property": "C89",
   "status": "partial",
   "theorems": [
    "Verif.Infer.C89_complete_partial",
    "Verif.Infer.C89_required",
    "Verif.Infer.C89_optional",
    "Verif.Infer.C89_needs_transformers",
    "Verif.Infer.C89_succeeds",
    "Verif.Infer.C89_loses_prefix"
   ],
   "note": "Complete with one stack of layers, or if the empty prefix happens to come first in the order of a set (C89_complete_partial; names without $ and {, layer numbers without leading zeros). Required only if in every model, optional exactly if tied or missing somewhere (C89_required, C89_optional); succeeds (C89_succeeds). Refuted: with several stacks a tensor whose name begins with the name of one may lose that beginning (C89_loses_prefix); if the transformers library cannot load the base model, inference always fails with a TypeError instead of going on as the warning says (C89_needs_transformers)."
  },
  {
   "property": "C90",
   "status": "partial",
   "theorems": [
    "Verif.Infer.C90_named",
    "Verif.Infer.C90_shipped",
    "Verif.Infer.C90_shipped_once",
    "Verif.Infer.C90_python",
    "Verif.Infer.C90_phi",
    "Verif.Infer.C90_same",
    "Verif.Infer.C90_refused",
    "Verif.Infer.C90_order",
    "Verif.Infer.C90_crimes",
    "Verif.Infer.C90_unknown",
    "Verif.Infer.C90_listed",
    "Verif.Infer.C90_recognised"
   ],
   "note": "C90_shipped, C90_shipped_once, C90_phi: which shipped definition a model gets. C90_same, C90_refused, C90_order when all architectures are known; C90_listed, C90_recognised. Refuted: as soon as one model has an unknown architecture nothing is refused (C90_unknown); with mixing allowed the result is the architecture of whichever model comes first in the order of a set (C90_crimes). C90_python: the two architectures that are defined in python."
  },
  {
   "property": "C91",
   "status": "partial",
   "theorems": [
    "Verif.Output.C91_layers",
    "Verif.Output.C91_unchanged",
    "Verif.Output.C91_vocab",
    "Verif.Output.C91_dtype",
    "Verif.Output.C91_no_key",
    "Verif.Output.C91_donor",
    "Verif.Output.C91_wrong_count",
    "Verif.Output.C91_donor_order"
   ],
   "note": "C91_layers (with C27_config_count_partial: ranges that do not run backwards), C91_unchanged, C91_vocab, C91_dtype, C91_donor. Refuted: architectures without a configuration key for the number of layers, all inferred ones among them, keep the old number (C91_no_key, C91_wrong_count); without a base model the configuration taken over depends on the order of a set (C91_donor_order)."
  },
  {
   "property": "C92",
   "status": "partial",
   "theorems": [
    "Verif.Output.C92_auto",
    "Verif.Output.C92_plurality",
    "Verif.Output.C92_ignores_missing",
    "Verif.Output.C92_named",
    "Verif.Output.C92_none",
    "Verif.Output.C92_tie_order"
   ],
   "note": "C92_auto, C92_plurality, C92_ignores_missing, C92_named, C92_none for all inputs. In a tie the template depends on the order of a set (C92_tie_order), so the choice is not determined by the configuration."
  },
  {
   "property": "C93",
   "status": "partial",
   "theorems": [
    "Verif.Output.C93_complete",
    "Verif.Output.C93_new_tokenizer",
    "Verif.Output.C93_copied_tokenizer_partial",
    "Verif.Output.C93_tolerates",
    "Verif.Output.C93_donor_required",
    "Verif.Output.C93_template_ignored",
    "Verif.Output.C93_template_late"
   ],
   "note": "C93_complete, C93_new_tokenizer, C93_copied_tokenizer_partial, C93_tolerates. Refuted: an invalid chat template is swallowed when the tokenizer is copied, and no tokenizer is written (C93_template_ignored); with a new tokenizer it fails the merge only after everything has been computed and written (C93_template_late); the merge fails if no local copy of the donor is found although nothing is to be copied (C93_donor_required)."
  },
  {
   "property": "C94",
   "status": "proved",
   "theorems": [
    "Verif.Rope.C94_rotation",
    "Verif.Rope.C94_isometry",
    "Verif.Rope.C94_positions",
    "Verif.Rope.C94_relative",
    "Verif.Rope.C94_matrix"
   ],
   "note": "C94_rotation, C94_isometry, C94_positions, C94_relative, C94_matrix over the reals; head sizes must be even."
  },
  {
   "property": "C95",
   "status": "partial",
   "theorems": [
    "Verif.Rope.C95_angles",
    "Verif.Rope.C95_angles_exact",
    "Verif.Rope.C95_position_partial",
    "Verif.Rope.C95_weighted",
    "Verif.Rope.C95_bounded_partial",
    "Verif.Rope.C95_projection",
    "Verif.Rope.C95_wraps_partial"
   ],
   "note": "Angles are best and exact (C95_angles, C95_angles_exact). The position is (up to 2e-8) the one with the nearest angles (C95_projection) and recovers positions below half a turn (C95_position_partial). Refuted in general: the position found is bounded by about half a turn (C95_bounded_partial), and a vector put at position 4 is not found again (C95_wraps_partial). C95_weighted: the weighted estimate recovers positions below half a turn, too, up to the 1e-8 in its denominator."
  },
  {
   "property": "C96",
   "status": "proved",
   "theorems": [
    "Verif.Rope.C96_refused",
    "Verif.Rope.C96_distinct",
    "Verif.Rope.C96_improves",
    "Verif.Rope.C96_combination",
    "Verif.Rope.C96_same_space",
    "Verif.Rope.C96_exact"
   ],
   "note": "C96_refused, C96_distinct, C96_improves, C96_combination, C96_same_space, C96_exact over the reals. Library functions are parameters: argmax, and least squares as minimiser (exists_oracle shows they exist)."
  },
  {
   "property": "C97",
   "status": "partial",
   "theorems": [
    "Verif.Magikarp.C97_fails",
    "Verif.Magikarp.C97_order",
    "Verif.Magikarp.C97_unused",
    "Verif.Magikarp.C97_reason",
    "Verif.Magikarp.C97_most",
    "Verif.Magikarp.C97_all",
    "Verif.Magikarp.C97_special_name"
   ],
   "note": "C97_fails, C97_order, C97_unused, C97_reason (up to the rounding of a fraction of a row), C97_most, C97_all over the reals. Refuted in part: the name looked at is the kind of a special token, so reserved tokens listed as special tokens are not recognised (C97_special_name)."
  },
  {
   "property": "C98",
   "status": "proved",
   "theorems": [
    "Verif.Magikarp.C98_off",
    "Verif.Magikarp.C98_rows"
   ],
   "note": "C98_off, C98_rows for any approximation method. Tokens with a well-trained row in the original model only are approximated, by design of the code."
  },
  {
   "property": "C99",
   "status": "partial",
   "theorems": [
    "Verif.NewRows.C99_combination",
    "Verif.NewRows.C99_transport",
    "Verif.NewRows.C99_simple",
    "Verif.NewRows.C99_rows",
    "Verif.NewRows.C99_john_hewitt",
    "Verif.NewRows.C99_john_hewitt_few",
    "Verif.NewRows.C99_samples"
   ],
   "note": "C99_rows, C99_simple, C99_combination, C99_transport, C99_samples for all inputs over the reals. Refuted: the fallback for a covariance that is not positive definite fails with a TypeError (C99_john_hewitt), always if there are no more rows than columns (C99_john_hewitt_few)."
  },
  {
   "property": "C100",
   "status": "partial",
   "theorems": [
    "Verif.NewRows.C100_never",
    "Verif.NewRows.C100_basis",
    "Verif.NewRows.C100_linear",
    "Verif.NewRows.C100_shift",
    "Verif.NewRows.C100_refused",
    "Verif.NewRows.C100_shift_wrong",
    "Verif.NewRows.C100_variance"
   ],
   "note": "With an integer for k: C100_basis, C100_refused, C100_linear. Refuted: the tool passes its options for k, so the method never succeeds (C100_never); and coefficients found for centered rows are applied to rows with their mean, so a shift is not carried over (C100_shift, C100_shift_wrong)."
  },
  {
   "property": "C101",
   "status": "partial",
   "theorems": [
    "Verif.Router.C101_length",
    "Verif.Router.C101_cheap",
    "Verif.Router.C101_cheap_order",
    "Verif.Router.C101_cheap_refused",
    "Verif.Router.C101_hidden_is_last",
    "Verif.Router.C101_hidden_last",
    "Verif.Router.C101_hidden_avg_partial",
    "Verif.Router.C101_random",
    "Verif.Router.C101_random_own",
    "Verif.Router.C101_unknown",
    "Verif.Router.C101_hidden_avg_padding"
   ],
   "note": "With hidden_avg padding is not excluded: states at padding tokens enter the mean of shorter prompts of a batch (C101_hidden_avg_padding); proved for prompts of equal length (C101_hidden_avg_partial). The tokenizer and the model are parameters; float arithmetic idealised over the reals."
  },
  {
   "property": "C102",
   "status": "partial",
   "theorems": [
    "Verif.Options.C102_device",
    "Verif.Options.C102_explicit",
    "Verif.Options.C102_device_set",
    "Verif.Options.C102_gpu_rich",
    "Verif.Options.C102_plain",
    "Verif.Options.C102_gpu_rich_all",
    "Verif.Options.C102_order",
    "Verif.Options.C102_again",
    "Verif.Options.C102_merge",
    "Verif.Options.C102_multi",
    "Verif.Options.C102_rich",
    "Verif.Options.C102_cuda_without_effect",
    "Verif.Options.C102_threads_partial",
    "Verif.Options.C102_threads_ignored",
    "Verif.Options.C102_sync",
    "Verif.Options.C102_evolve"
   ],
   "note": "--write-threads is ignored by merges, raw merges and extraction of LoRAs (C102_threads_ignored: one thread whatever is asked for); honoured by mixtures of experts and tokensurgeon (C102_threads_partial). With an explicit device --cuda has no effect (C102_cuda_without_effect)."
  },
  {
   "property": "C103",
   "status": "proved",
   "theorems": [
    "Verif.Surgeon.C103_config",
    "Verif.Surgeon.C103_fails",
    "Verif.Surgeon.C103_size",
    "Verif.Surgeon.C103_no_matrix"
   ],
   "note": "For keys of the size that do not overlap with the six keys copied. If the model has neither matrix the size becomes None (C103_no_matrix)."
  },
  {
   "property": "C104",
   "status": "proved",
   "theorems": [
    "Verif.WholeMerge.C104_linear",
    "Verif.WholeMerge.C104_merge_to_disk"
   ],
   "note": "C104_merge_to_disk joins the models of tasks, scheduling, execution, loading, gathering, saving and the writer for an arbitrary method; C104_linear goes from a configuration with a list of models (numbers as weights, no base model) through the planner to what is read back. Both assume what C19 and C24 show to be necessary: models and weight names that can be told apart, and distinct names of output weights. Tokenizer settings and device placement are not part of it."
  },
  {
   "property": "C105",
   "status": "partial",
   "theorems": [
    "Verif.Merge.C105_linear",
    "Verif.Merge.C105_task_arithmetic",
    "Verif.Merge.C105_ram",
    "Verif.Merge.C105_ramplus",
    "Verif.Merge.C105_sce",
    "Verif.Merge.C105_decorator",
    "Verif.Sphere.C105_slerp",
    "Verif.Sphere.C105_arcee",
    "Verif.Sphere.C105_nuslerp",
    "Verif.Sphere.C105_multislerp",
    "Verif.Sphere.C105_model_stock",
    "Verif.Sphere.C105_karcher_partial",
    "Verif.Sphere.C105_karcher_first"
   ],
   "note": "All methods, except the Karcher mean where the directions of the models cancel: there the result is the first model listed (C105_karcher_first); otherwise C105_karcher_partial. Exact arithmetic: float sums in another order may differ by rounding."
  },
  {
   "property": "C106",
   "status": "partial",
   "theorems": [
    "Verif.Merge.C106_task_arithmetic",
    "Verif.Merge.C106_unchanged",
    "Verif.Merge.C106_ram",
    "Verif.Merge.C106_ramplus",
    "Verif.Merge.C106_nearswap",
    "Verif.Merge.C106_sce_partial",
    "Verif.Merge.C106_sce_copies",
    "Verif.Sphere.C106_slerp_partial",
    "Verif.Sphere.C106_slerp_tiny",
    "Verif.Sphere.C106_nuslerp_partial",
    "Verif.Sphere.C106_nuslerp_base_partial",
    "Verif.Sphere.C106_nuslerp_tiny",
    "Verif.Sphere.C106_model_stock",
    "Verif.Sphere.C106_multislerp_partial",
    "Verif.Sphere.C106_multislerp_base_partial",
    "Verif.Sphere.C106_multislerp_unchanged"
   ],
   "note": "Holds for task arithmetic and TIES and their relatives without sparsification (C106_task_arithmetic), nearswap, linear (C33_identical), arcee fusion (C47_identical); for RAM and RAM+ but for changes of at most epsilon, which are undone (C106_ram, C106_ramplus). Refuted: SCE with a selection gives a tensor of another shape (C106_sce_copies); slerp and nuslerp enlarge tensors of tiny length (C106_slerp_tiny, C106_nuslerp_tiny); model stock applies only a fraction of small changes (C106_model_stock); multislerp fails on tensors which three or more models share with the base (C106_multislerp_unchanged), otherwise it multiplies the change by cos(eps); the Karcher mean makes tiny tensors zero (C71_negligible)."
  },
  {
   "property": "C107",
   "status": "partial",
   "theorems": [
    "Verif.Merge.C107_task_arithmetic_partial",
    "Verif.Merge.C107_linear_partial",
    "Verif.Merge.C107_linear_rows",
    "Verif.Sphere.C107_multislerp_partial",
    "Verif.Sphere.C107_multislerp_fails"
   ],
   "note": "Linear for tensors of one shape, task arithmetic and its relatives for tensors of the shape of the base, multislerp if two or more models whose directions do not cancel are left; nuslerp is C69_ends_and_order, slerp C34_endpoints. Refuted: in embeddings a model of weight zero with fewer rows still removes rows from the result (C107_linear_rows); with a third model of weight zero multislerp fails on two opposite tensors which it would combine (C107_multislerp_fails)."
  },
  {
   "property": "C108",
   "status": "proved",
   "theorems": [
    "Verif.WholeMerge.C108_stack"
   ],
   "note": "For configurations of the three forms (Sections) that can be planned (Usable: equal lengths in a slice, models listed once in a slice and their names without separators, distinct output names), without tokenizer settings. The specification of places (Place), of settings (Means, Along, Reads) and of what is left out is stated apart from the planner."
  },
  {
   "property": "C109",
   "status": "proved",
   "theorems": [
    "Verif.WholeMerge.C109_slerp",
    "Verif.WholeMerge.C109_no_base"
   ],
   "note": "As C108 (Sections, Usable), with tensors of one shape for each weight; embeddings of different sizes are C44. Real arithmetic. A configuration without a base model is refused, also for single sources (slerpMethod)."
  },
  {
   "property": "C110",
   "status": "proved",
   "theorems": [
    "Verif.WholeMerge.C110_settings",
    "Verif.WholeMerge.C110_task_arithmetic",
    "Verif.WholeMerge.C110_names",
    "Verif.WholeMerge.C110_registered"
   ],
   "note": "As C108 (Sections, Usable). Workable is what is asked of a place: the tensors exist, the base model is among the inputs, the numbers are given and the sparsification is defined for them (Doable: some entry is kept by ties, gamma marks some entry for breadcrumbs, density +- epsilon strictly within 0..1 for della, otherwise the code raises or does something else: C38, C40). Booleans as texts are not converted here. C110_settings: no result without a base model and values for lambda, normalize and int8_mask."
  },
  {
   "property": "C111",
   "status": "proved",
   "theorems": [
    "Verif.Card.C111_models",
    "Verif.Card.C111_config",
    "Verif.Card.C111_hub",
    "Verif.Card.C111_written",
    "Verif.Card.C111_files",
    "Verif.Card.C111_revisions",
    "Verif.Card.C111_untitled"
   ],
   "note": "The specification reads the text of the card by lines (listed, sentence, hubItems, shown). What YAML writes for a list item is a parameter (OneLine: without line break). Side results: revisions are not shown (C111_revisions); with a slash at the end of the output path the title is \"Untitled Model (1)\" (C111_untitled); a local model under a relative path with at most one slash makes the merge ask the hub, and fail without a connection after the weights are written (C111_written and the example)."
  },
  {
   "property": "C112",
   "status": "proved",
   "theorems": [
    "Verif.WholeMerge.C112_any_method"
   ],
   "note": "For any method f that is a function of what it sees (View) and the tensors; C113_registered shows that every registered method is one. Sections and Usable as in C108. The settings are the specification SeenAt, by the relation Reads; no model function in it."
  },
  {
   "property": "C113",
   "status": "proved",
   "theorems": [
    "Verif.WholeMerge.C113_ram",
    "Verif.WholeMerge.C113_ramplus",
    "Verif.WholeMerge.C113_sce",
    "Verif.WholeMerge.C113_nearswap",
    "Verif.WholeMerge.C113_nuslerp",
    "Verif.WholeMerge.C113_nuslerp_base",
    "Verif.WholeMerge.C113_model_stock",
    "Verif.WholeMerge.C113_arcee_fusion",
    "Verif.WholeMerge.C113_karcher",
    "Verif.WholeMerge.C113_multislerp",
    "Verif.WholeMerge.C113_multislerp_base",
    "Verif.WholeMerge.C113_names",
    "Verif.WholeMerge.C113_guide",
    "Verif.WholeMerge.C113_registered"
   ],
   "note": "linear: C104; passthrough: C108; slerp: C109; the task arithmetic family: C110 (C110_registered); the rest here. Tensors of one shape at each place. Hypotheses are the domains of the methods (C39, C41, C42, C47, C66, C70): model stock needs a defined ratio, multislerp a direction that does not vanish, karcher a run that ends with numbers (the code gives NaN for exactly opposite directions). Orders of sets, samples of arcee_fusion and choices of topk among equals are arbitrary."
  },
  {
   "property": "C114",
   "status": "partial",
   "theorems": [
    "Verif.WholeMerge.C114_registers",
    "Verif.WholeMerge.C114_refuses",
    "Verif.WholeMerge.C114_unannotated_ignored",
    "Verif.WholeMerge.C114_name",
    "Verif.WholeMerge.C114_called",
    "Verif.WholeMerge.C114_base_required"
   ],
   "note": "C114_registers, C114_refuses, C114_called, C114_base_required, C114_name hold. The claim fails for annotations: the check compares the annotation with None, a missing one is inspect.Parameter.empty, so an unannotated argument (or one annotated as something else) is ignored: never passed, not configurable, and without default every call fails (C114_unannotated_ignored). A registration under an existing name replaces that method without notice (C114_name)."
  },
  {
   "property": "C115",
   "status": "proved",
   "theorems": [
    "Verif.WholeTok.C115_merge_to_disk",
    "Verif.WholeTok.C115_tokens",
    "Verif.WholeTok.C115_linear",
    "Verif.WholeTok.C115_any_method",
    "Verif.WholeTok.C115_rows",
    "Verif.WholeTok.C115_reindexes",
    "Verif.WholeTok.C115_base_missing_fails"
   ],
   "note": "Hypotheses: the tensors of a place have two dimensions and one width, no token id is at or above the vocabulary size that the model config gives (the code raises KeyError otherwise), and no tokens are added to a tokenizer that the base model keeps (see C50). C115_base_missing_fails proves the last sentence of the claim; it is also listed as a disagreement, since the configuration is accepted. Orders of python sets are arbitrary."
  },
  {
   "property": "C116",
   "status": "partial",
   "theorems": [
    "Verif.WholeMulti.C116_constructs",
    "Verif.WholeMulti.C116_files_partial",
    "Verif.WholeMulti.C116_lost",
    "Verif.WholeMulti.C116_tokenizer_lost"
   ],
   "note": "C116_constructs and C116_files_partial prove the claim for runs in which the main thread collects all messages of the workers. The code stops collecting as soon as the completion event is set (multigpu_executor.py:153-161), so messages may be lost; C116_lost proves that for every merge with a required weight there is such a loss that makes the last phase raise without finalizing the output, and C116_tokenizer_lost that a tokenizer whose message is lost is not kept."
  },
  {
   "property": "C117",
   "status": "partial",
   "theorems": [
    "Verif.WholeMerge.C117_complete_partial",
    "Verif.WholeMerge.C117_only_named",
    "Verif.WholeMerge.C117_module_left_out"
   ],
   "note": "Proved for configurations by models, by slices, and by modules if these name all modules of the architecture (C117_complete_partial). C117_only_named and C117_module_left_out refute the rest: a module not named is left out of the output without complaint. C29_modules proves that unknown modules are refused."
  },
  {
   "property": "C118",
   "status": "partial",
   "theorems": [
    "Verif.Session.C118_first_use_partial",
    "Verif.Session.C118_options_ignored",
    "Verif.Session.C118_stale",
    "Verif.Session.C118_workers_default",
    "Verif.Session.C118_main_thread"
   ],
   "note": "Proved as long as the files of a model stay as they are and from its first use on (C118_first_use_partial), and for the thread that runs the merge (C118_main_thread). Refuted otherwise: the loaders are kept by the class and never dropped, so a later merge with other options or after a change of the files gets the old loader (C118_options_ignored) and, for the file last read, the old tensors (C118_stale); worker threads of multi-GPU merges use default options (C118_workers_default). One thread at a time: interleavings inside a call are not modelled."
  },
  {
   "property": "C119",
   "status": "partial",
   "theorems": [
    "Verif.Shipped.C119_slerp_models",
    "Verif.Shipped.C119_slerp",
    "Verif.Shipped.C119_usable_partial",
    "Verif.Shipped.C119_bert_fails",
    "Verif.Shipped.C119_models",
    "Verif.Shipped.C119_linear",
    "Verif.Shipped.C119_slices_usable",
    "Verif.Shipped.C119_slices",
    "Verif.Shipped.C119_stack",
    "Verif.Shipped.C119_task_arithmetic"
   ],
   "note": "C119_usable_partial: any configuration that fits a shipped definition meets all conditions of the end to end theorems, for every JSON definition except Qwen2-VL/Qwen2.5-VL (whose weights are not distinct, C63) and BertModel, whose planning is proved never to succeed (C119_bert_fails). C119_models turns any result for places into one for the weights the definition lists by name, C119_linear, C119_task_arithmetic, C119_stack and C119_slerp are the end to end statements for linear merges, task arithmetic, stacks of layers and slerp; C119_slices turns any result for slices of several models into one for the weights by name. The architectures defined in python (AFMoE, GLM4-MoE) are covered only by their JSON part; the layers they generate are not claimed here."
  },
  {
   "property": "C120",
   "status": "partial",
   "theorems": [
    "Verif.InMemory.C120_in_memory",
    "Verif.InMemory.C120_same_as_disk_partial",
    "Verif.InMemory.C120_discarded",
    "Verif.InMemory.C120_in_memory_tokenizer"
   ],
   "note": "C120_in_memory and C120_in_memory_tokenizer characterise merges in memory exactly, for every method. Equality with the merge to disk: C120_same_as_disk_partial, if the method always gives a tensor and all planned names are parameters. Refuted for optional weights a method discards (model_stock): the merge to disk leaves them out, the merge in memory raises (C120_discarded): with a data type given at ReturnTensor (io/tasks.py:268), otherwise when None is copied. Not modelled: packing into parameters of vLLM (qkv_proj, gate_up_proj), conversion by copy_ to the type of the parameter, broadcasting in copy_."
  },
  {
   "property": "C121",
   "status": "proved",
   "theorems": [
    "Verif.Devices.C121_right_device",
    "Verif.Devices.C121_stored",
    "Verif.Devices.C121_same_results",
    "Verif.Devices.C121_merge_to_disk",
    "Verif.Devices.C121_files",
    "Verif.Devices.C121_shared_memory",
    "Verif.Devices.C121_clone_tensors"
   ],
   "note": "Executors on one device (merge.py:77-81); several devices are C116. That torch computes the same on any device for arguments on one device is the hypothesis (SameOnAnyDevice, SameMerge); nothing is assumed of arguments on several devices. What the library takes for shared memory is arbitrary; other exceptions of saving are left out."
  },
  {
   "property": "C122",
   "status": "partial",
   "theorems": [
    "Verif.MultiMerge.C122_nested",
    "Verif.MultiMerge.C122_resume",
    "Verif.MultiMerge.C122_kept",
    "Verif.MultiMerge.C122_interrupted_counterexample"
   ],
   "note": "C122_nested proves the first part and C122_resume taking up an interrupted recipe, provided an interrupted merge leaves nothing that is taken for a result. The code does not see to that: weights and configuration are written before the tokenizer and other files (merge.py:98-145), so an interruption there is taken for a finished merge by the next run (C122_interrupted_counterexample). Merges are arbitrary functions of the configuration, the directories they refer to and the old contents of their directory; that they read only what they refer to by name is a hypothesis (a path into the intermediate directory spelled out in full is not seen as a reference), as is that their directories differ."
  },
  {
   "property": "C123",
   "status": "proved",
   "theorems": [
    "Verif.Rounding.C123_exact",
    "Verif.Rounding.C123_casts",
    "Verif.Rounding.C123_types",
    "Verif.Rounding.C123_linear",
    "Verif.Rounding.C123_weights",
    "Verif.Rounding.C123_monotone",
    "Verif.Rounding.C123_single",
    "Verif.Rounding.C123_unchanged",
    "Verif.Rounding.C123_one_model",
    "Verif.Rounding.C123_nearswap",
    "Verif.Rounding.C123_task_arithmetic",
    "Verif.Rounding.C123_difference",
    "Verif.Rounding.C123_binary",
    "Verif.Rounding.C123_nearest",
    "Verif.Rounding.C123_restored",
    "Verif.Rounding.C123_absorbed"
   ],
   "note": "Every operation of the modelled methods is followed by rounding to a nearest number of a set with relative precision u and underflow error eta; C123_binary and C123_nearest show that all binary formats (with gradual underflow) are such sets, C123_absorbed that the last sentence is sharp. Sums over models are any function that is monotone, accurate to a relative error and exact for one summand and for zeros (seqSum_adds: adding one after the other). Left out: overflow to infinity, NaN, the rounding of lambda, scale and t from double to the type of a kernel."
  },
  {
   "property": "C124",
   "status": "partial",
   "theorems": [
    "Verif.Moe.C124_config",
    "Verif.Moe.C124_config_special",
    "Verif.Moe.C124_mixtral_again",
    "Verif.Moe.C124_qwen3_again",
    "Verif.Moe.C124_finished",
    "Verif.Moe.C124_failed",
    "Verif.Moe.C124_configured",
    "Verif.Moe.C124_runs",
    "Verif.Moe.C124_deepseek_directory",
    "Verif.Moe.C124_mergeable",
    "Verif.Moe.C124_deepseek_new_directory",
    "Verif.Moe.C124_sizes",
    "Verif.Moe.C124_tokenizer",
    "Verif.Moe.C124_left_behind",
    "Verif.Moe.C124_succeeds"
   ],
   "note": "C124_finished, C124_mergeable, C124_failed and C124_config prove all but the last sentence. That one is false: the DeepSeek layout opens config.json in a directory nobody has made (C124_deepseek_new_directory, C124_deepseek_directory), the feed-forward size recorded is the base model's whatever the experts' is (C124_sizes), the tokenizer is saved after its padding was changed for the prompts (C124_tokenizer); and a run that fails on a tensor leaves its config.json behind (C124_left_behind). The configuration classes of the transformers library are an arbitrary function; what is needed of them (keeping an entry) is a hypothesis. What a failing run leaves of tensor files is not modelled. C124_succeeds: an acceptable mixture of models that store what the layout needs is made."
  },
  {
   "property": "C125",
   "status": "partial",
   "theorems": [
    "Verif.Search.C125_pool",
    "Verif.Search.C125_serial",
    "Verif.Search.C125_buffered",
    "Verif.Search.C125_buffered_answers",
    "Verif.Search.C125_invalid",
    "Verif.Search.C125_pool_memory",
    "Verif.Search.C125_search",
    "Verif.Search.C125_goes_on",
    "Verif.Search.C125_strategies",
    "Verif.Search.C125_references",
    "Verif.Search.C125_converted",
    "Verif.Search.C125_reshard",
    "Verif.Search.C125_reshard_ends",
    "Verif.Search.C125_interrupted",
    "Verif.Search.C125_override_lost",
    "Verif.Search.C125_apart",
    "Verif.Search.C125_report",
    "Verif.Search.C125_memory_default",
    "Verif.Search.C125_forced_rounded"
   ],
   "note": "C125_search, C125_strategies (C125_pool, C125_serial, C125_buffered), C125_pool_memory, C125_references, C125_converted, C125_reshard and, put together, C125_report prove all but the last sentence, for optimisers that are any function of what they have been told and evaluations that give equal scores for equal models. The last sentence is false: the serial strategy tests an object reference, which is never false, so a genotype without a merge raises (C125_invalid; the others end the search as well, C86); a directory left by an interrupted conversion is taken for the converted model (C125_interrupted); the override of an architecture is dropped by the conversion (C125_override_lost). Actors in memory need genotypes whose models differ to differ in an entry that is not the default of its class (Comparable): no others are compared (C125_memory_default). Weights always read in another type lose precision by the conversion (C125_forced_rounded). The ray pool and the cma optimiser are modelled from their documentation; vLLM, wandb and time limits are not modelled."
  },
  {
   "property": "C126",
   "status": "proved",
   "theorems": [
    "Verif.Packed.C126_packed",
    "Verif.Packed.C126_without",
    "Verif.Packed.C126_unknown",
    "Verif.Packed.C126_length",
    "Verif.Packed.C126_names",
    "Verif.Packed.C126_shipped",
    "Verif.Packed.C126_packing"
   ],
   "note": "C126_packed is for any names and any loader of parts that obeys the laws in Proper; C126_names and C126_shipped are for all shipped definitions but the two whose names repeat, C126_packing shows that such parameters exist. C126_without: without vLLM this is the loop of C120. Models with a tied head have no parameter for it, but merges have a tensor for it: C126_unknown makes this an error, so such models cannot be evaluated in memory. vLLM itself (the engine, the loaders) is not modelled."
  },
  {
   "property": "C127",
   "status": "partial",
   "theorems": [
    "Verif.Resets.C127_refused",
    "Verif.Resets.C127_distinct",
    "Verif.Resets.C127_initial",
    "Verif.Resets.C127_replacement_partial",
    "Verif.Resets.C127_worse",
    "Verif.Resets.C127_signed"
   ],
   "note": "C127_distinct, C127_refused and C127_initial are for all inputs (exact arithmetic). That replacements are no worse holds for candidates of one length with eps = 0 when the coefficients are not negative (C127_replacement_partial); in general it is false: C127_worse loses an exact solution with the first replacement. C127_signed: the products are compared with their sign, so a candidate of which a negative multiple is the target is not used (orthogonal matching pursuit, C66 and C81, takes absolute values). With no places and some rounds the loop over permutations does not end (C127_refused)."
  },
  {
   "property": "C128",
   "status": "proved",
   "theorems": [
    "Verif.CommandLine.C128_reads",
    "Verif.CommandLine.C128_only",
    "Verif.CommandLine.C128_tables",
    "Verif.CommandLine.C128_parameters",
    "Verif.CommandLine.C128_call",
    "Verif.CommandLine.C128_refused",
    "Verif.CommandLine.C128_options"
   ],
   "note": "C128_reads and C128_only: the parser accepts exactly the lines built from uses of options, with the meaning of those uses; C128_tables: this applies to all ten commands; C128_call: the call, with numbers read as in C26; C128_parameters: the parameters of the functions; C128_options: the merge options after validation (C102). How click reads words is modelled from its documentation and behaviour (trusted); types of the commands' own options (floats, choices, paths) are not modelled, their values are kept as words."
  },
  {
   "property": "C129",
   "status": "partial",
   "theorems": [
    "Verif.Lora.C129_resized",
    "Verif.Lora.C129_one_size",
    "Verif.Lora.C129_runs",
    "Verif.Lora.C129_restores_partial",
    "Verif.Lora.C129_low_rank",
    "Verif.Lora.C129_closest_partial",
    "Verif.Lora.C129_zero_rank",
    "Verif.Lora.C129_bias_lost"
   ],
   "note": "C129_restores_partial: all weights come back, of modules left out the base model's, and biases of modules saved at full rank, for runs without --save-module, modules whose last name says whether they are saved at full rank (Uniform) and names that PEFT can tell apart (Apart); what PEFT does is described in the model (peftLoad), not code of the repository. C129_low_rank says when the rank is enough, C129_closest_partial what holds otherwise. False in general: C129_bias_lost (the differences of biases that the run writes are not used, as the configuration does not ask for them) and C129_zero_rank (with --sv-epsilon a module that has not changed gets rank zero, and the adapter cannot be loaded). That every matrix has a singular value decomposition, so that the hypothesis on the oracle can be met, is proved (SvdExists). C129_resized: the same for a fine-tuned model with another vocabulary, loaded on the base model with resized embeddings; C129_one_size: otherwise sizes play no part. When an extraction succeeds is C129_runs."
  },
  {
   "property": "C130",
   "status": "partial",
   "theorems": [
    "Verif.Document.C130_reads",
    "Verif.Document.C130_accepts",
    "Verif.Document.C130_round_trip",
    "Verif.Document.C130_valid",
    "Verif.Document.C130_unknown_keys",
    "Verif.Document.C130_token_unchecked",
    "Verif.Document.C130_single_condition",
    "Verif.Document.C130_model_named_union",
    "Verif.Document.C130_configuration"
   ],
   "note": "C130_reads: everything read is what the relations ConfSays etc. say, for all documents; C130_accepts: everything they say is read, for documents whose sources of tokens are in one form each (PlainTokens; forms mixed in one source are told apart by trying them in turn); C130_configuration: the configuration the merge works with is the one the document describes, said directly of the document (ConfIs); C130_round_trip: writing and reading, for references without separators, blanks or quotes (C24) and vocabularies that are not models called union or base (C130_model_named_union: those are read back as the word); C130_valid: what is read passes the checks of C23. False in general that senseless documents are refused: C130_unknown_keys (misspelt keys are ignored), C130_token_unchecked (the check of ModelTokenEmbedding never has an effect, its input is then read as a reference), C130_single_condition (a conditional value outside a list is read, but no use of it succeeds). The conversions and alternatives of pydantic are described in the model, conversions of texts to numbers are parameters; YAML is trusted."
  },
  {
   "property": "C131",
   "status": "proved",
   "theorems": [
    "Verif.Main.C131_main",
    "Verif.Main.C131_started",
    "Verif.Main.C131_starts",
    "Verif.Main.C131_uses",
    "Verif.Main.C131_linear"
   ],
   "note": "C131_main: exactly when a merge is started and with what (the configuration by reading, which is C130); C131_started and C131_starts: the same in terms of what the document says (the second for documents with sources of tokens in one form each, as in C130); C131_uses: the run is one the theorems of C113 are about; C131_linear: a linear merge from the command line to the tensors in the files. Files, YAML, the loaders and the architecture with its numbers of layers (C90, C119) are parameters of the model; tokenizers are in C115, the model card in C111."
  },
  {
   "property": "C132",
   "status": "partial",
   "theorems": [
    "Verif.Genome.C132_reports_partial",
    "Verif.Genome.C132_vector",
    "Verif.Genome.C132_same_name",
    "Verif.Genome.C132_underscore"
   ],
   "note": "C132_reports_partial: all numbers are there, and nothing else, if the last parts of the models' paths are distinct and have no underscore and the filters are distinct; C132_vector: vectors, in the order of layer groups, models, filters, parameters. False otherwise: C132_same_name (two models org1/a and org2/a: only the numbers of one are reported), C132_underscore (models a and a_weight with a filter weight)."
  },
  {
   "property": "C133",
   "status": "proved",
   "theorems": [
    "Verif.Main.C133_task_arithmetic",
    "Verif.Main.C133_plain"
   ],
   "note": "C133_task_arithmetic covers the eight methods (Variant); C133_plain is plain task arithmetic with the formula in full. Conditions: parameters are numbers (not lists by layer or conditions, for which see C110 and C112), switches are 0 or 1, the tensors of a name have one shape (embeddings of different sizes: C110, C44), and the numbers allow the sparsification (Doable, see C110). Random draws are arbitrary (any sample); sorting is any sorting. Files, YAML, the loaders and the architecture with its numbers of layers are parameters of the model, as in C131."
  },
  {
   "property": "C134",
   "status": "proved",
   "theorems": [
    "Verif.Main.C134_stack",
    "Verif.Main.C134_llama"
   ],
   "note": "C134_stack: from the command line to the files, with C119_stack (from the configuration to the files, with the output at least as deep as the ranges). C134_llama: where each weight is from, in names, for Llama. Scales are numbers (not lists by layer or conditions, for which see C108 and C112); the number of layers of the output's configuration is a parameter that has to be the sum of the ranges (C27 proves that the planner counts that many). Files, YAML, the loaders and the architecture are parameters of the model, as in C131."
  },
  {
   "property": "C135",
   "status": "proved",
   "theorems": [
    "Verif.Main.C135_slerp",
    "Verif.Main.C135_llama"
   ],
   "note": "C135_slerp: from the command line to the files, with C119_slerp and C119_slices (from the configuration to the files, for slices of any number of models). C135_llama: what each weight is merged from, in names, for Llama. The tensors of the two models have one shape at each place (embeddings of different sizes: C34); t is given once, for the whole document (per slice: C109); the number of layers of the output's configuration is a parameter that has to be the sum of the ranges (C27 proves that the planner counts that many). Exact arithmetic; OnArc as in C34 and C109 (straight line for nearly parallel tensors). Files, YAML, the loaders and the architecture are parameters of the model, as in C131."
  },
  {
   "property": "C136",
   "status": "partial",
   "theorems": [
    "Verif.Shipped.C136_usable",
    "Verif.Shipped.C136_slices_partial",
    "Verif.Shipped.C136_sparse_to_dense",
    "Verif.Shipped.C136_dense_to_sparse_fails",
    "Verif.Shipped.C136_slerp_partial"
   ],
   "note": "C136_usable: whatever is proved about merges of slices in general (C108-C113) applies to these architectures; C136_slices_partial and C136_slerp_partial: from the configuration to the files, by the names of weights, for AFMoE without restriction and for GLM4-MoE if every dense layer of the result comes from dense layers. Without that the claim is false: layers are matched by position, so that a layer with experts at a dense place gives a dense matrix the values of the stacked experts (C136_sparse_to_dense), and a dense layer at a place with experts makes the merge fail (C136_dense_to_sparse_fails)."
  },
  {
   "property": "C137",
   "status": "partial",
   "theorems": [
    "Verif.Main.C137_main",
    "Verif.Main.C137_naive_count_fails",
    "Verif.Main.C137_task",
    "Verif.Main.C137_linear",
    "Verif.Main.C137_no_weight_fails",
    "Verif.Main.C137_slerp"
   ],
   "note": "C137_main: exactly when a merge is started, and that it is the one of the document which says the same. C137_task, C137_linear and C137_slerp: from the command line to the files, for the eight task arithmetic methods, linear and slerp. Not all holds: --naive-count fails always (C137_naive_count_fails), and there is no default for --weight: without it these methods fail (C137_no_weight_fails). For other methods C137_main with the theorems about them applies."
  },
  {
   "property": "C138",
   "status": "partial",
   "theorems": [
    "Verif.Main.C138_dry_run",
    "Verif.Main.C138_shuffle",
    "Verif.Main.C138_random",
    "Verif.Main.C138_llama"
   ],
   "note": "C138_shuffle, C138_llama (in names), C138_dry_run hold. With --full-random C138_random needs weights not above 1: above, layers that do not exist can be drawn (C77). The output directory gets as many layers as drawn; that the configuration written says so is C116. The configuration printed or written with --print-yaml, --write-yaml is C148."
  },
  {
   "property": "C139",
   "status": "partial",
   "theorems": [
    "Verif.Card.C139_about",
    "Verif.Card.C139_command",
    "Verif.Card.C139_blank",
    "Verif.Card.C139_hub",
    "Verif.Card.C139_written"
   ],
   "note": "C139_about, C139_hub, C139_written hold. The command shown is the one that was run for words without characters that are special for a shell (C139_command); nothing is quoted, so that with a blank in a word it is another one (C139_blank)."
  },
  {
   "property": "C140",
   "status": "partial",
   "theorems": [
    "Verif.Main.C140_main",
    "Verif.Main.C140_restores_partial",
    "Verif.Main.C140_resized_partial",
    "Verif.Main.C140_base_lost",
    "Verif.Main.C140_listed_fails",
    "Verif.Main.C140_negative_rank",
    "Verif.Main.C140_again"
   ],
   "note": "C140_main says of every command line what is written; C140_restores_partial and C140_resized_partial that the adapter gives the fine-tuned model back if the base model is named by a path alone and the differences fit into the rank, C140_again that the command of the README gives the same. Otherwise false: the configuration names only the path of the base model, so its revision or adapter is lost (C140_base_lost); --save-module fails unless all modules kept whole are listed (C140_listed_fails); a negative rank is not refused (C140_negative_rank)."
  },
  {
   "property": "C141",
   "status": "partial",
   "theorems": [
    "Verif.Main.C141_document",
    "Verif.Main.C141_main",
    "Verif.Main.C141_adapter",
    "Verif.Main.C141_files",
    "Verif.Main.C141_succeeds",
    "Verif.Main.C141_mergeable",
    "Verif.Main.C141_bits",
    "Verif.Main.C141_adapter_case"
   ],
   "note": "C141_document and C141_main say of every document and command line what follows; C141_files, C141_succeeds, C141_mergeable and C141_bits prove the rest except for models with adapters. Those never work, whatever the other options (C141_adapter, C141_adapter_case)."
  },
  {
   "property": "C142",
   "status": "partial",
   "theorems": [
    "Verif.Main.C142_main",
    "Verif.Main.C142_rest",
    "Verif.Main.C142_embeddings",
    "Verif.Main.C142_shared",
    "Verif.Main.C142_same",
    "Verif.Main.C142_magikarp",
    "Verif.Main.C142_config",
    "Verif.Main.C142_trust",
    "Verif.Main.C142_scale_zero",
    "Verif.Main.C142_succeeds"
   ],
   "note": "C142_main says of every command line when the command succeeds and what it leaves; C142_rest, C142_embeddings, C142_shared, C142_same, C142_magikarp, C142_config and C142_succeeds prove the rest of the claim. False are: both tokenizers are loaded with trust_remote_code=True in every run that builds a matrix (C142_trust); --new-vocab-scale 0 does not scale (C142_scale_zero); the options for bytes and prefixes act on the other matrix (in the statement of C142_embeddings, as in C60_swapped)."
  },
  {
   "property": "C143",
   "status": "partial",
   "theorems": [
    "Verif.Main.C143_document",
    "Verif.Main.C143_main",
    "Verif.Main.C143_names",
    "Verif.Main.C143_union",
    "Verif.Main.C143_unset",
    "Verif.Main.C143_zero",
    "Verif.Main.C143_linear",
    "Verif.Main.C143_base",
    "Verif.Main.C143_values",
    "Verif.Main.C143_files",
    "Verif.Main.C143_linear_case",
    "Verif.Main.C143_union_case",
    "Verif.Main.C143_fails_case"
   ],
   "note": "C143_document and C143_main say which documents and command lines are accepted and what is merged; C143_names, C143_values, C143_linear and C143_files prove the names, values and files. False are: --tensor-union (and neither option) fails whenever some tensor is not in all the files (C143_union); a parameter for single models that is not set for a model fails, although one is set for the merge or there is a default (C143_unset); a weight of 0 counts as not set (C143_zero); a linear merge with a base model that is not among the models fails (C143_base). Raw bytes of the file formats are not modelled; linear is the only method whose values are spelled out from the command line here, the others are given by C143_values and the theorems about each method."
  },
  {
   "property": "C144",
   "status": "partial",
   "theorems": [
    "Verif.Main.C144_same_name",
    "Verif.Main.C144_main",
    "Verif.Main.C144_template",
    "Verif.Main.C144_own_method",
    "Verif.Main.C144_case",
    "Verif.Main.C144_template_case",
    "Verif.Main.C144_own_method_case",
    "Verif.Main.C144_same_name_case"
   ],
   "note": "C144_main says of every command line with a recipe in which only references look like references (ClearRecipe) and an ordinary directory name when the command starts and that, whatever order the tasks are executed in, the nested results are in their places; C144_same_name: repeated names are refused. False without that hypothesis: every text of a configuration is taken for a reference, so that a chat template with two plus signs makes the command fail (C144_template) and a merge named like its own merge method is refused as circular (C144_own_method)."
  },
  {
   "property": "C145",
   "status": "partial",
   "theorems": [
    "Verif.Main.C145_import",
    "Verif.Main.C145_never",
    "Verif.Main.C145_refused",
    "Verif.Main.C145_yaml",
    "Verif.Main.C145_case"
   ],
   "note": "False: the command never merges anything (C145_import: it cannot be imported; C145_never: the configurations it makes are never valid, whatever the line and the file; C145_refused says how it ends for the files it is for). Only the last part of the claim holds: mergekit-yaml accepts the same slices and understands them as meant (C145_yaml), and what it writes for them is C113 and C131."
  },
  {
   "property": "C146",
   "status": "partial",
   "theorems": [
    "Verif.Main.C146_document",
    "Verif.Main.C146_starts",
    "Verif.Main.C146_copies",
    "Verif.Main.C146_final",
    "Verif.Main.C146_interrupted",
    "Verif.Main.C146_case"
   ],
   "note": "False for an interrupt before the first generation has been scored: the first point, tried by nobody, is saved as the best (C146_interrupted). Otherwise proved: C146_document (what documents say), C146_starts (when a search begins and with what, both ways), C146_copies (what the converted models are), C146_final (which merge is written, where and how; for models whose copies have different names and as many layers). The optimiser, the setting up of the strategies and lm-eval are parameters; what the merge writes is C113 and C131."
  },
  {
   "property": "C147",
   "status": "partial",
   "theorems": [
    "Verif.Main.C147_settings",
    "Verif.Main.C147_pool",
    "Verif.Main.C147_others",
    "Verif.Main.C147_trust",
    "Verif.Main.C147_shuffles_once",
    "Verif.Main.C147_length",
    "Verif.Main.C147_case"
   ],
   "note": "False for two of the three strategies: buffered and serial never shuffle data, whatever the document says, and give the quantisation to the evaluation as an unknown keyword instead of loading models with it (C147_others); and that code of models may be run never reaches an evaluation on disk (C147_trust). Proved: C147_settings (all other settings, for every strategy, and when evaluation is refused), C147_pool (shuffling and bits with a pool), C147_shuffles_once, C147_length. What lm-eval does with the call is outside the model."
  },
  {
   "property": "C148",
   "status": "proved",
   "theorems": [
    "Verif.Main.C148_shuffle",
    "Verif.Main.C148_legacy",
    "Verif.Main.C148_dry_case",
    "Verif.Main.C148_print_case",
    "Verif.Main.C148_only_valid",
    "Verif.Main.C148_invalid_case"
   ],
   "note": "C148_shuffle and C148_legacy, for every line of mergekit-yaml that names a file with the document shown (Repeats); C148_only_valid: nothing is shown of a configuration that is not valid. The text of YAML itself is a library. Cases: C148_dry_case (a dry run, then the merge), C148_print_case, C148_invalid_case."
  },
  {
   "property": "C149",
   "status": "proved",
   "theorems": [
    "Verif.Main.C149_nearswap",
    "Verif.Main.C149_ram",
    "Verif.Main.C149_ramplus",
    "Verif.Main.C149_sce",
    "Verif.Main.C149_model_stock",
    "Verif.Main.C149_arcee_fusion",
    "Verif.Main.C149_nuslerp",
    "Verif.Main.C149_multislerp"
   ],
   "note": "C149_nearswap, C149_arcee_fusion, C149_sce, C149_ram, C149_ramplus, C149_nuslerp, C149_multislerp and C149_model_stock, for every right use of the command (Good): exactly the weights of the architecture are left, each the result of the method (Leaves). Cases with numbers: nearswap_case, ram_case, ramplus_case, sce_case, stock_case (38/7 from the cosine 24/25), nuslerp_case, multislerp_case, fusion_case."
  }
 ]
}