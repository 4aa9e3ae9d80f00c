# Formal model of mergekit in Lean 4 - design

Subject: the python package `mergekit` at the pinned commit, read as text in `/repo`.
Nothing in `/repo` was built, run or changed.

## Layout

* `lean/Verif/Model/*.lean` - the model: small total functions that mirror the python functions branch by branch.
  Every definition cites the file and lines it models and says where it simplifies.
* `lean/Verif/Proof/*.lean` - helper lemmas.
* `lean/Verif/Props/*.lean` - the property theorems (names `Cnn_...`), each preceded by a short specification that does
  not mention the model's helpers, and followed by an `example` showing that a concrete non-trivial case meets the hypotheses.
* `properties.jsonl` - the English properties; `MANIFEST.json` - which theorem settles which property;
  `seeded/LOG.jsonl` - log of the seeded-bug experiments.

## Conventions of the model

* Exceptions are values: a python function that may raise returns `Except`/`Option` or a result type with error constructors.
* Python `dict` is an association list (when order is observable) or a partial function `α → Option β`.
* Python `set` iteration order and thread scheduling are nondeterministic: modelled by an arbitrary choice function or by an
  inductive step relation; theorems quantify over all of them.
* Floating point numbers are idealised: configuration numbers and tensor entries are elements of an arbitrary linearly
  ordered field (or of ℚ / ℝ where computation or analysis is needed). Overflow and NaN are NOT modelled; rounding only in `Rounding`
  (C123: linear, passthrough, nearswap and task arithmetic with its relatives).
* A tensor is a flat list of entries (with an explicit shape where shape matters). Devices and dtypes are opaque.
* Files are atomic: a crash falls between file-system operations, not inside one (stated where used).
* Random sampling is modelled by an arbitrary outcome.

## Plan per property

| id | model | how proved |
|----|-------|-----------|
| C01 | `Executor._run` + `build_schedule` over an arbitrary finite graph, arbitrary task semantics that may raise | big-step denotation `Eval` as spec; loop invariant over schedule prefixes; for every pop order of the exploration set |
| C02 | same; the run returns a trace of executed tasks | trace = schedule prefix; schedule has no duplicates and is exactly the reachable uncached set |
| C03 | same; argument lookup failure is an explicit outcome | invariant: every live argument of every later task is in the value map |
| C04 | same; states after each step | invariant: held ⇒ used by a later step (or unused cached value) |
| C05 | Kahn's algorithm with a priority queue as in networkx | invariant of indegree map; selected node is minimal among all ready nodes; error iff cycle |
| C06 | `TaskUniverse.add_task` over an abstract well-founded task type | invariant by induction over additions |
| C07 | device workers as interleaving of result puts, drain thread, completion event | positive theorem when everything queued is drained; refutation by a concrete interleaving for the real loop |
| C08 | leading/trailing fixpoints | invariants of the work lists |
| C09 | weakly connected components + greedy assignment | induction over islands |
| C10-C12 | `TensorWriter` + a file-system map + `ShardedTensorIndex.from_disk` + `LazyTensorLoader` | induction over saves; round trip |
| C13 | finalize as list of file-system operations, crash = prefix | for every prefix the reader errors or sees everything |
| C14 | queued shard writes applied in any order (permutation) before the renames | writes to distinct files commute |
| C15 | loader state = last shard | result function of disk only |
| C16 | `TorchArchiveReader` with stream position | invariant over histories |
| C17 | `find_class` decision | induction over reference list |
| C18, C19 | `LoadTensor`, `GatherTensors` | decision logic; injectivity of the key, refuted in general |
| C20-C22 | `evaluate_setting`, `ConfigReader.parameter` over ℚ / ordered field | algebra, list induction |
| C23 | validators | decision table |
| C24 | `ModelPath`/`ModelReference` parse and print over `List Char` | split/join lemmas |
| C25, C26 | dotted keys, `parse_kmb` | induction |
| C27-C32 | `MergePlanner` | list induction; C31 is refuted by a concrete configuration and proved under the condition that makes it true |
| C33-C48 | merge methods entrywise over an ordered field (slerp, karcher over ℝ) | algebra |
| C49-C54 | tokenizer building and embedding permutation | list induction |
| C55-C66 | scripts (multimerge, raw pytorch, moe, lora, tokensurgeon, evo, fill, layershuffle) | per function |

Where the code violates a property as users would state it, the negation is proved with a concrete witness, and the part
that holds is proved under a name ending in `_partial`; the section "Disagreements" below lists them.

## Trusted base

* Lean 4.33.0 kernel; axioms at most `propext`, `Classical.choice`, `Quot.sound` (Mathlib's usual ones).
* The reading of the python text into the definitions of `Verif/Model` (each cites its lines).
* `Verif/Model/ArchData.lean` is a transcript of the JSON files in `mergekit/_data/architectures` (names, flags, aliases, prefixes),
  written by a script from the files.
* Converters of the transformers library are parameters: that they deliver the tensor they announce and pack the tensors given to them
  in the order given are hypotheses (`Delivers`, `Packs`, `PacksExperts`); so are the operations on tensors and prompts of a mixture of
  experts (`Ops`, `Gates`).
* The singular value decomposition is an oracle: the theorems on adapters hold for every result that is one (`IsSvd`; that
  there always is one is proved in `Proof/SvdExists`).  How PEFT reads an adapter's configuration and its tensors is assumed (`peftValue`, `peftLoad`: modules named in
  `modules_to_save` are replaced, targets get the product of their pair times alpha over rank, ranks that are not positive are refused, biases of `lora_B` are used only with `lora_bias`).
* Further parameters of the model, about which only the stated hypotheses are assumed (each shown to be satisfiable by an example):
  which element of a set is taken next (`PopOracle`, set orders in `Infer`, `TokenSurgeonRun`); which of several equal maxima
  `argmax`/`topk` returns and what `qr`/`lstsq` give (`Omp`, `Resets`, `Rope`, `Landmarks`, `NewRows`); the principal components (`Pca`); powers, `exp`
  and random bits of genomes (`Genome`); the evaluations and merges of an evolution (`Evolve`, a `World`); tokenizer, model and random
  numbers of router prompts (`Router`); which accelerators a machine has (`Options`, a `Machine`); the tools for new rows (`NewRows`).
* Not modelled: torch kernels, floating point (except rounding in C123), networkx/pydantic/transformers internals except as stated, file contents encoding
  (safetensors/pickle formats), network access, logging.

### Which code is modelled

| code (under `mergekit/`) | module of the model | left out |
|---|---|---|
| `graph.py` | `Graph`, `Universe`, `Pipeline`; moving values between devices: `Devices` (with `_save_st` of `io/tensor_writer.py`) | progress bars |
| `multigpu_executor.py` | `MultiGPU`; with the tasks of a merge to disk: `WholeMulti` | CUDA streams, the worker threads' scheduling beyond interleavings of puts and drains |
| `io/tensor_writer.py`, `io/lazy_tensor_loader.py`, `io/loader.py` | `Writer`, `Archive` | bytes of the file formats |
| `io/lazy_unpickle.py` | `Unpickle`, `Archive` | the pickle machine itself |
| `io/tasks.py` | `LoadTask`, `WholeMerge`, `Session` (`LoaderCache`) | devices; two threads inside one call of the cache |
| `common.py` | `ModelRef`, `LoadTask`, `Output`, `Lora` | downloading, `ImmutableMap` beyond equality and lookup |
| `config.py`, `tokenizer/config.py` | `Config`, `RawMerge`, `Document` | YAML itself; pydantic is described in `Document`: which documents are read as which fields, alternatives tried in turn |
| `plan.py` | `Plan`, `WholeMerge`; tokenizer tasks inside a plan: `WholeTok` | |
| `merge.py`, `options.py`, `scripts/run_yaml.py` | `Output`, `Options`, `Resume`, `Main` (theorems also in `MainTask`, `ShippedTask`, `MainStack`, `ShippedStack`, `MainSlerp`, `ShippedSlices`, `MainBased`, `MainLegacySlerp`), `CommandLine` (also the options of all `scripts`) | copying of tagalong files' contents, the model card |
| `architecture/*` | `Arch`, `ArchData`, `Convert`, `Infer`, `Moe`; given to the planner: `Shipped`, `ShippedMoe`; found by name and model type: `ArchKnown` | transformers' configuration classes |
| `merge_methods/*`, `sparsify.py` | `Tensor`, `MergeMethods`, `Sparsify`, `Sphere`; how parameters reach a method: `WholeMerge`, `WholeSphere`, `WholeTask`; with rounding: `Rounding` | chunking, in-place updates |
| `tokenizer/*` | `Tokenizer` | the tokenizers library |
| `moe/*`, `scripts/moe.py` | `Moe`, `Router`; what a run leaves in the directory: `MoeBuild`; from the command line and the document: `MoeMain` | what quantised loading does to hidden states (an oracle) |
| `tokensurgeon/*`, `scripts/tokensurgeon.py` | `TokenSurgeon`, `Omp`, `Resets`, `Landmarks`, `Subword`, `Pca`, `Rope`, `Magikarp`, `NewRows`, `SurgeonConfig`, `SurgeonMain` | batching by memory |
| `evo/*`, `scripts/evolve.py` | `Genome`, `GenomeReport`, `Evolve`, the search as a whole and its strategies: `Search`, from the command line: `EvolveMain`, parameters of vLLM: `Packed`, `InMemory` (with `ReturnTensor` of `io/tasks.py` and `plan_in_memory`) | ray, vllm, lm-eval, monkey patches |
| `scripts/multimerge.py`, `merge_raw_pytorch.py`, `extract_lora.py`, `fill_missing_params.py`, `layershuffle.py`, `legacy.py` | `MultiMerge`, `Recipe`, `MultiMain`, `RawMerge`, `RawMain`, `Lora`, `LoraWhole`, `LoraMain`, `Fill`, `Scripts`, `ScriptMain`, `CommandLine` | - |
| `card.py` | `Card`, `CardLora` | - |
| `scripts/bakllama.py` | `Bakllama` | - |
| `evo/monkeypatch.py`, the calls of lm-eval in `evo/helpers.py`, `evo/strategy.py`, `evo/actors.py` | `Model/EvolveCalls.lean` (`monkeypatch_lmeval_shuffle`; the arguments of every evaluation) | `monkeypatch_tqdm` (progress bars), `monkeypatch_lmeval_vllm` (sets `AUTO_MODEL_CLASS` of lm-eval's vLLM class); what lm-eval does with its arguments |
| `merge_methods/registry.py`, `merge_methods/__init__.py` | `Registry` (all entries with their settings, `get`), `WholeTask` (the variants of task arithmetic) | `pretty_name`, `reference_url` (in `Card`) |
| `merge_methods/easy_define.py` | `MergeMethods` (the call), `Registry` (the decorator) | the generated class names |


## Disagreements between the code and the property list

Each is proved as a theorem about the model (name in parentheses).

* C05: the priority queue of networkx orders *roots* as they become ready, and targets are only pushed behind the dummy root.
  A ready target with a high priority can therefore be picked after a lower-priority task (`C05_target_priority_ignored`).
* C06: a first non-recursive `add_task` leaves a handle whose arguments are missing (`C06_nonrecursive_first_add_incomplete`).
  Not used inside the repository.
* C07: `update_progress` tests `done_event` before draining the queue, so results put on the queue just before completion can be lost:
  the target is silently not yielded (`C07_result_lost`) or, worse, the trailing executor recomputes its arguments from the `None`
  placeholders of other messages and yields a wrong value (`C07_wrong_value`).  Per-device tasks are run only by workers, so a target
  that is per-device is lost when there is no parallel task (`C07_per_device_target_lost`).
* C08: a main-thread task without dependencies and dependants is both leading and trailing (`C08_overlap_possible`); it runs once because
  the leading result is passed to the trailing executor as cached.
* C10/C15: a tensor name saved twice into different shards leaves both copies on disk; which one a reader returns depends on what it read
  before (`C10_duplicate_name_ambiguous`, `C15_condition_needed`).  C10 and C15 carry the distinctness condition.
* C67: nothing is removed from a used output directory, so a stale index or a stale safetensors file hides the new model
  (`C67_stale_index_shadows`, `C67_other_format_shadows`).
* C16: a failed open leaves the archive handle unusable for every later read (`C16_failed_open_poisons`); a stored tensor whose strides are
  not those of a dense tensor is read truncated (`C16_strided_view_truncated`), and a zero-dimensional one fails (`C16_scalar_fails`).
* C19: inputs are gathered under the key "model:name"; models that differ only in `override_architecture` share it and one is lost
  (`C19_override_lost`).
* C24: references that differ in `override_architecture` only, or in having an empty revision, print alike; a path with "+" given as a field
  is saved as model plus adapter (`C24_override_prints_alike`, `C24_empty_revision_prints_alike`, `C24_plus_in_path_becomes_adapter`).
* C26: with a suffix, signs, blanks and underscores are accepted (`C26_signed_accepted`).
* C27: a slice naming the same model twice keeps only the last of the two layer ranges (`C27_repeated_model_dropped`); a range running backwards
  yields no layers but is subtracted from the layer count in the output configuration (`C27_reversed_range_count`).
* C31: weights after the last layer are zipped with as many copies as the *first* slice has sources, so models of the last slice are dropped
  silently when it has more (`C31_sources_dropped`).
* C68: an optional weight with alternative names makes planning fail: the names are a tuple that is added to a list
  (`C68_aliases_crash`).
* C38: when gamma times the number of entries is below 1, every entry is dropped (`C38_everything_dropped`).
* C40: rows with one entry divide 0 by 0 (`C40_single_column`); a negative epsilon reverses the order of the probabilities
  (`C40_negative_epsilon`).
* C41: for very small t nothing is swapped although entries are nearer than t (`C41_tiny_t`).
* C44: the Karcher method cuts embeddings in a temporary list only, so different vocabulary sizes fail (`C44_karcher_not_cut`).
* C45: SCE can return a tensor of another shape (`C45_wrong_shape`).
* C48: methods declared with the decorator get their tensors in the order of the gathered dictionary, not of the configuration
  (`C48_order_not_kept`), and the base is not first unless the function has a base argument (`C48_base_not_first`).
* C42: two models on opposite sides of the base divide by zero (`C42_opposite`).
* C70: the contributions in the tangent space at the mean of the directions always cancel, so Multi-SLERP is a normalised weighted sum
  (`C70_result`), not a spherical interpolation (`C70_not_slerp`); its length is off by the cosine of `eps`.
* C71: opposite inputs divide by zero in exact arithmetic (`C71_opposite`); inputs shorter than the tolerance become zeros even if they are
  all equal (`C71_negligible`).
* C49: when the vocabulary size of a model cannot be read from its configuration, `tokenizer.vocab_size` is used, which does not count added
  tokens; those with later ids are lost from the union (`C49_added_lost`).
* C50: with `tokenizer_source: base` the output tokenizer *is* the base model's tokenizer object, so tokens added to it count as present in the
  base model, with an id the base model has no row for (`C50_base_gains_tokens`).
* C52: a token configured as "zero" reads a variable that was never assigned, and a token no model has fails a validation
  (`C52_configured_zero_fails`, `C52_absent_token_fails`).
* C54: different special tokens of one kind are normalized alike, so one of them loses its entry (`C54_special_collision`).
* C55: any string of a configuration that equals the name of a merge is replaced, also if it is not a model (`C55_any_string`); with "+" or "@" in
  the directory of intermediate merges the replaced reference is read back as another model (`C55_separator`); a string that is no valid
  reference, such as a chat template with two "+", makes loading fail although the surrounding `except` was meant to let it pass
  (`C55_refused`, `C55_template_crashes`).
* C56: union mode never writes the union: a tensor that some file lacks raises `KeyError` when it is loaded (`C56_union_fails`); tensors only the
  base model has are dropped silently, also in the strict mode (`C56_base_extra_ignored`); a "+" in a path changes the identity of the model
  (`C56_separator`).
* C73: a model without an own setting of a per-model parameter always fails, even if the merge sets it or it has a default (`C73_unset_fails`); an
  own setting of zero is not used (`C73_zero_ignored`).
* C74: files written after the configuration (tokenizer among them) are never made up for (`C74_unfinished`); a `--no-lazy` run over a finished
  directory can leave one that is unreadable and skipped (`C74_forced_rerun`).
* C64: an interrupted adapter merge leaves an entry that is used as it is (`C64_crash_sticks`); the data type is not part of the key
  (`C64_dtype_ignored`); the 32-bit checksum makes different models share entries (`C64_collision`).
* C63: the projector module of the Qwen2-VL and Qwen2.5-VL definitions has `override_num_layers: 2` and layer templates without
  placeholders, so its four weights are listed twice, whatever the configuration (`C63_qwen_vl`).
* C75: a checkpoint whose layers have one expert is judged not to provide the packed weights although loading them works
  (`C75_single_expert`); when members of a group are missing for one of the patterns the check says so, but loading packs what is there,
  with experts out of step (`C75_incomplete_packed`).
* C57: the model of a shared expert is not loaded unless it is the base model or an expert, so the run fails (`C57_shared_not_loaded`), also
  when the layout was chosen because of it (`C76_chosen_not_written`).
* C58: gate_mode "uniform_random" needs no prompts but is refused without (`C58_uniform_random`).
* C62: a tensor both models have under the same name is not replaced if a prefix is chosen for others (`C62_shared_ignored`); between equally
  good prefixes the order of a set decides (`C62_order_matters`); the index file of the larger model is copied and hides a result that fits
  into one shard (`C62_stale_index`).  Run as a script the command calls `main()` before the class it uses is defined (read, not modelled).
* C77: `--full-random` draws layers below `int(n * weight)` instead of below `n` (`C77_out_of_reach`, `C77_beyond`); models without a weight
  are dropped (`C77_unweighted`).  Without `--full-random` weights are mandatory (`C65_accepted`), although the option has a default.
* `mergekit/scripts/bakllama.py` imports `MergeOptions` from a module that does not define it and cannot run (C145).
* C59: ranks are recorded under the full names of the modules; PEFT matches by suffix, so it can read another module's rank for nested names
  (`C59_nested_names`).
* C79: `--save-module` delivers a tuple, and the plan appends to it: the run fails as soon as another module must be saved at full rank
  (`C79_listed_fails`).  Modules are consulted and listed by the last part of their name, so the treatment of one decides for all
  (`C79_not_uniform`).
* C80: the difference of optional tensors that both models lack is computed as `None - None`, a `TypeError` (`C80_optional_bias_fails`).
* C60: byte or prefix matching that is enabled for the input embeddings only acts on the output embeddings, and the other way round
  (`C60_swapped`); a donor token such as `<0x-1>` raises an error (`C60_byte_sign`); the method "mean" fails with noise or scaling as soon as
  two tokens are new (`C60_mean_noise_fails`); of several special tokens of one kind all but the last get zero rows (`C60_special_zero`);
  for architectures whose output matrix is not listed the command fails (`C60_no_head`).
* C82: weights by distance are divided by at least 1e-6, so far neighbours give a sum below one (`C82_far`); weights by cosine similarity can
  be negative, and if they nearly cancel the new vector is up to a million times too long (`C82_cosine_blows_up`).
* C83: `weights[::-1]` for the input embeddings gives the first piece the highest weight; the comment wants the last (`C83_weighted_reversed`).
* C84: `M = B^T A` and `R = U V^T` is the rotation from the original's coordinates to the donor's; it is applied to the donor's
  (`C84_wrong_way`, `C84_inverse`).  The mistake is invisible when the principal axes are determined up to sign (`C84_rotated_partial`).
- **C61** A genome may name a base model that is not among its models for any method. For `slerp` it is then appended as a third source of every
  slice, which the merge method refuses (`C61_slerp_extra_base`); for `linear` it is listed without a weight (`C61_linear_extra_base`), and
  the merge fails building the weight vector. A genotype given as a 4-D tensor with several layer groups although no granularity is set is accepted
  and yields slices past the last layer (`C61_groups_unchecked`).
- **C85** An exception in one evaluation (or merge, or an invalid genotype, for which `rmtree(None)` raises) leaves the queue's loop; no other
  future is ever resolved, the callers' `ray.get` hangs (`C85_failure_silences`). `merged.pop()` takes the newest model, so an older one can wait as long as
  new genotypes arrive (`C85_starvation`; one population at a time bounds the wait). With `num_gpus` 0 nothing starts (`C85_no_accelerator`).
- **C86** `-x["score"]` raises `TypeError` for an invalid genotype, whose score is `None` (`C86_invalid_aborts`). A failed merge leaves its temporary
  directory (`C86_temporary`).
- **C88** Optional tensors given by one genotype's merge but not by a later one's keep the earlier values in the shared model (`C88_leaks`).
- C89. `infer_architecture_info` assigns a tensor outside the layers to the first prefix, in the order of a python set, with which its name
  begins, cuts that prefix off and never puts it back (`_wi(t, "")`): `head` next to layers `h.0...` is listed as `ead` if `h` comes before
  the empty prefix (`C89_loses_prefix`).  When `get_transformers_info` returns `None`s ("tied/ignored weights will not be detected"), the
  test `full_name in embed_names` raises a `TypeError`, so the fallback to the names in the checkpoints can never succeed
  (`C89_needs_transformers`).  `_keys_to_ignore_on_save` is not applied to tensors outside the layers.
- C90. One model of unknown architecture switches the check for mixed architectures off (`C90_unknown`); with `--allow-crimes` the
  architecture used depends on the order of a set of model references (`C90_crimes`).
- C91. Inferred architectures have no configuration key for the number of layers: a merge that changes the depth writes a configuration with
  the old number, with a warning (`C91_no_key`, `C91_wrong_count`).  Without `base_model` the configuration is taken from an arbitrary one of
  the models (`C91_donor_order`).
- C92. Ties between chat templates are decided by the order of a set (`C92_tie_order`).
- C93. An invalid `chat_template` raises only inside the `try` that tolerates failures to copy a tokenizer: the merge reports success and
  writes no tokenizer (`C93_template_ignored`).  `_copy_tagalong_files` looks for the donor's local copy even if there is nothing to copy,
  outside any `try` (`C93_donor_required`).  `post_fill_parameters` (merge.py:141-152) is asked of an object that never has that attribute:
  the branch is dead.
- C95. `estimate_pos_id_best` projects angles that are only known up to full turns: the position it finds is never much larger than half a
  turn of the fastest pair (`C95_bounded_partial`), so that larger positions are not found again (`C95_wraps_partial`).  The code after its
  first `return` is dead.  The `1e-8` added to norms that are at least one biases every position (within `2e-8`).
- C96. The fourth value returned by `batch_mp_rope` belongs to the coefficients of the pursuit, not to the ones returned after the final
  least squares; no caller uses it.
- C97. `well_trained_tokens` looks for `reserved_special_token` in the *kind* of a special token, since that is what a normalised special
  token holds: a reserved token listed under `additional_special_tokens` is not recognised (`C97_special_name`).
- C98. With `--magikarp` a token that is well-trained in only one of the models is approximated even if the original model has a row for it.
- C99. `john_hewitt_init` calls `len` of a number when the covariance is not positive definite, so the fallback its warning announces fails
  with a `TypeError` (`C99_john_hewitt`), e.g. whenever there are no more rows than columns (`C99_john_hewitt_few`).
- C100. `build_embedding_matrix` passes the options object for `k`: the method `stb` always fails, even if there are no new tokens
  (`C100_never`).  Its basis is found for centered rows, but the coefficients are applied to rows with their mean; models that differ by a
  shift are not treated alike (`C100_shift_wrong`).
- C101: with `hidden_avg` (`moe/router.py`, get_hidden_states) the mean is taken over all positions of the padded batch, so the states at padding tokens count for
  prompts shorter than the longest of the same call (`C101_hidden_avg_padding`).
- C102: `write_threads` never reaches the writer in merges, raw merges and LoRA extraction: the plan passes it to `TensorWriterTask` as `max_write_threads`, which is
  not one of its fields and is ignored (`C102_threads_ignored`).  `--cuda --device cpu` computes on the CPU, and `--multi-gpu` is ignored by `mergekit-pytorch`.
- C103: a model with neither matrix would be written with a vocabulary of size `None` (`C103_no_matrix`).
- C105: the Karcher mean (`merge_methods/karcher.py`) of models whose directions cancel is the first one listed, so the result depends on the order of the models
  (`C105_karcher_first`: three unit vectors at 120 degrees).
- C106: copies of one model do not always give that model.  SCE with `select_topk < 1` returns a tensor with one more dimension (`C106_sce_copies`); slerp and nuslerp
  take tensors of length below `1e-8` or `1e-7` for nearly orthogonal to themselves and enlarge them by up to 41 percent (`C106_slerp_tiny`, `C106_nuslerp_tiny`); model
  stock applies only part of a change shorter than `1e-3` (`C106_model_stock`); multislerp raises `ValueError` if three or more models have the base model's tensor
  unchanged (`C106_multislerp_unchanged`).
- C107: in a linear merge of embeddings a model of weight zero with a smaller vocabulary still cuts the result to its size (`C107_linear_rows`); a third model of weight
  zero makes multislerp fail on two opposite tensors (`C107_multislerp_fails`).
- C111: a model given by a relative path with at most one slash that exists here is looked up on the hub when the card is written; without a connection the merge fails there, after the weights and before the tokenizer are written. A local model of the same name as one of the hub is shown as that one.
- C111: the card does not show revisions, so two revisions of a model are listed alike; a slash at the end of the output path makes the title "Untitled Model (1)".
- C114: an argument of a decorated function without annotation, or with another one than the documented kinds, is not refused but ignored: it cannot be configured, is not
  passed, and every merge fails if it has no default (`C114_unannotated_ignored`; `easy_define.py:75` tests for `None`, a missing annotation is `inspect.Parameter.empty`).
  Registering a second method under a name replaces the first without notice (`C114_name`).
- C115: a configuration with a tokenizer to build whose base model is not among the models of a slice with embeddings is accepted and planned, and then stops with `KeyError` in
  `tokenizer/embed.py` as soon as a token needs the base model's row (`C115_base_missing_fails`).
- C116: since the main thread of the multi-GPU executor stops collecting results once the workers have finished (`multigpu_executor.py:153-161`), for every merge with a
  required weight there is a run in which all workers complete and the merge then raises, the output not being finalized (`C116_lost`); or the tokenizer is lost
  (`C116_tokenizer_lost`).
- C117: a configuration by `modules:` that leaves out a module of the architecture is accepted, and the output lacks all weights of that module (`C117_module_left_out`).
- C118: `LoaderCache.loaders` (`io/tasks.py:21`) belongs to the class and is never emptied: a second merge in the same process reads a model through the loader of the
  first, whatever its own options (`C118_options_ignored`) and whatever has become of the files (`C118_stale`). The options are kept per thread, and the worker threads of
  multi-GPU merges never set them, so they look up a model's type without trusting remote code even if the merge was told to (`C118_workers_default`).
- C119: no merge of BertModel can be planned. Its definition has an optional weight with an alias, and for such a weight the planner adds a tuple to a list
  (`plan.py:170-172`), which raises TypeError (`C119_bert_fails`).
- C120: an optional weight which the method discards (`model_stock` with fewer than three models) is left out of a merge to disk, but `ReturnTensor` calls `.to` on
  `None` if a data type is given (`io/tasks.py:268-274`), and otherwise the evaluator copies `None` into a parameter: merging in memory raises (`C120_discarded`).
- C122: a merge of a recipe counts as done as soon as its directory holds a configuration and weights (`multimerge.py:40-49`), which are written before the tokenizer,
  the model card and further files (`merge.py:98-145`). If it is interrupted in between, running the recipe again skips it and succeeds with the incomplete
  directory (`C122_interrupted_counterexample`).
- C123: task arithmetic with one model of weight one is computed as base + (model - base) in the data type of the merge
  (`generalized_task_arithmetic.py:190-227, 152-184`), so in bfloat16 small entries over large base entries are lost although nothing is merged (`C123_absorbed`).
- C124: the DeepSeek layout writes `config.json` with `open` before anything makes the output directory (`moe/deepseek.py:121`; the other layouts use `save_pretrained`,
  which makes it): `mergekit-moe` into a new directory fails after the gates were computed (`C124_deepseek_new_directory`).
- C124: no layout compares sizes: experts with another feed-forward size than the base model's are accepted, and `config.json` records the base model's
  (`C124_sizes`; `moe/deepseek.py:94`, `moe/qwen.py:84-85`, `moe/qwen3.py:65`).
- C124: the tokenizer is saved with the padding side and token that were set to embed the prompts (`scripts/moe.py:39-42, 80-82`; `C124_tokenizer`), and `config.json` is
  written before the tensors are read, so a failing run leaves it behind (`C124_left_behind`).
- C125: `evaluate_genotype_serial` tests `if not merged_path` on an object reference, which is never false (`evo/strategy.py:262`), so a genotype without a merge makes
  `evaluate_model` remove the path `None` (`C125_invalid`).
- C125: a conversion that was interrupted leaves a directory, and `_reshard_model` takes any directory for a converted model (`scripts/evolve.py:402-404`;
  `C125_interrupted`).  It also drops `override_architecture` (`scripts/evolve.py:404, 427`; `C125_override_lost`), and weights with a `force_dtype` are rounded to `bfloat16`
  (`C125_forced_rounded`).
- C125: `_maybe_init_model` compares only the entries of the new configuration that differ from the defaults of its class (`evo/actors.py:160`), so a model of another size stays
  in use when the new size is the default (`C125_memory_default`).
- C126: a model with tied embeddings has no parameter for its head (`named_parameters()` gives each once), but a merge has a tensor for `lm_head.weight`, read through `tied_names`
  (`io/tasks.py:87`); `evo/actors.py:331-333` then raises "Unknown parameter", with vLLM and without (example beside `C126_unknown`).
- C127: replacements in `batch_mp_resets` can make the result worse, since the candidate with the largest product is taken whatever its length (`tokensurgeon/omp.py:192-198`;
  `C127_worse`), products are not compared in absolute value, unlike in `batch_omp` (`omp.py:172-173`; `C127_signed`), and `k = 0` with a positive number of iterations never ends
  (`omp.py:162-164`; `C127_refused`).
- C129: `make_config_dict` does not set `lora_bias` (`scripts/extract_lora.py:203-218`), so the `lora_B.bias` tensors written by `plan_lora_module` (`:505-526`) are not used and the changed
  biases of decomposed modules are lost (`C129_bias_lost`).  With `--sv-epsilon` a module that has not changed gets rank zero (`:239-241`), which PEFT refuses (`C129_zero_rank`).
- C130: no model forbids extra fields (`config.py:16-99`), so misspelt keys are ignored (`C130_unknown_keys`).  A source `{kind: model_token, model: X}` without token, or with both forms of it,
  fails `validate_token` (`tokenizer/config.py:19-25`), but is then accepted as the third alternative of the union (`:35`), a `ModelReference` with an ignored key `kind`: the token is taken from `X`
  under its own name (`C130_token_unchecked`).  `ParameterSetting` admits a single conditional value (`config.py:21-23`), which `evaluate_setting` refuses (`:26-52`; `C130_single_condition`).  A model
  called `union` given by fields is written as the word (`C130_model_named_union`).
- C132: `genotype_to_param_arrays` puts its keys together from the base name of the model's path, the parameter and the filter with underscores (`evo/genome.py:354-361`).  Models `org1/a` and `org2/a`
  get the same keys, and only the numbers of the last are reported (`C132_same_name`); so do model `a` with a filter `weight` and model `a_weight` without (`C132_underscore`).
- C136: `plan_layer` pairs the weights of a layer of the output with those of the layers merged by position (`plan.py:239-265`).  GLM4-MoE layers have 14 weights if dense and 18 with experts
  (`architecture/moe_defs.py:79-107`), in another order.  So a layer with experts that comes to a place where the output's configuration has a dense layer gives, without a word, the values of
  `mlp.experts.down_proj` to `mlp.down_proj.weight` (`C136_sparse_to_dense`), and a dense layer at a place for experts makes the merge fail (`C136_dense_to_sparse_fails`).
- C137: `mergekit-legacy --naive-count` sets the parameter `consensus_method` to the text `count` (`scripts/legacy.py:107-108`).  Parameters of a configuration must be numbers (`config.py:30-45`), so
  validation fails each time (`C137_naive_count_fails`).  The help says that weights default to 1.0 for all models (`scripts/legacy.py:28-35`), but nothing sets them, and the methods that need weights
  require them (`C137_no_weight_fails`): `mergekit-legacy out --merge a --base-model b` does not work with the default method `ties`.
- C139: the command in the README of an extracted adapter is `" ".join(sys.argv)` (`scripts/extract_lora.py:180`), without quotes: for `--out-path "my lora"` it is another command (`C139_blank`).
  The warning about the vocabulary begins with a line ` [!WARNING]` without `>` (`card.py:210`), so it is not shown as a warning (the text is that of `C139_about`).
- C140: `adapter_config.json` names `base_ref.model.path` as its base model (`scripts/extract_lora.py:205`): for `--base-model b@rev` or `--base-model b+adapter` the adapter is loaded on another
  model than the one it was extracted from, and modules get other weights than those of the fine-tuned model (`C140_base_lost`).  `--save-module` makes the extraction fail unless it lists every module
  that is kept whole (`C140_listed_fails`).  A negative `--max-rank` leaves out that many of the last singular values, whatever `--sv-epsilon` (`C140_negative_rank`).
- C141: `mergekit-moe` reads models named with an adapter by `lazy_loader` without merging the adapter in first (`moe/common.py:19-32`), which fails an assertion (`common.py:150-157`); so a mixture
  with such a model is never made, although the settings of merges with `--lora-merge-cache` are accepted (`C141_adapter`, `C141_adapter_case`).
- C142: `build_embedding_matrix` loads both tokenizers with `trust_remote_code=True` whatever `--trust-remote-code` says (`scripts/tokensurgeon.py:475-484`), so code from the models' repositories runs
  without leave (`C142_trust`).  `--new-vocab-scale 0` (and `--new-vocab-noise 0`) count as not given, so that rows are not scaled to zero (`scripts/tokensurgeon.py:507-510`, `C142_scale_zero`).
- C143: `mergekit-pytorch` never writes a union: unless `--tensor-intersection` is given, a tensor that is missing in one of the files makes it fail, also with `--tensor-union`
  (`scripts/merge_raw_pytorch.py:101-129`, `C143_union`).  `construct_param_dicts` fails for a model without a setting of a parameter even where there is one for the merge or a default, and takes 0 for
  not set (`scripts/merge_raw_pytorch.py:187-207`, `C143_unset`, `C143_zero`).  With `linear`, a base model that is not among the models has no weight, and the merge fails (`C143_base`).
- C144: `mergekit-multi` takes every text of a configuration for a reference to a model (`scripts/multimerge.py:150-165`): a chat template that cannot be read as one, such as one with two `+`, makes the whole
  command fail (`C144_template`), and a merge with the name of its own merge method is refused as circular (`C144_own_method`).
- C145: `bakllama` never merges anything.  It imports `MergeOptions` from `mergekit.common`, where there is none (`scripts/bakllama.py:10`, `C145_import`); and if it did not, it gives `InputSliceDefinition`s
  for the slices of the configuration, which are refused whatever the file says (`scripts/bakllama.py:60-68`, `C145_never`, `C145_refused`).  `mergekit-yaml` accepts the same slices (`C145_yaml`).
- C146: an interrupt of `mergekit-evolve` before the first generation has been scored does not end the command: the first point of the search, which has not been tried - random numbers with `random_init` -, is
  reported as the best and saved as the final model (`scripts/evolve.py:364-382`, `C146_interrupted`).
- C147: `shuffle: true` in the document of a search is honoured by the actors of the `pool` strategy only (`evo/actors.py:71-72`); `buffered` and `serial` evaluate in processes that are never patched
  (`evo/strategy.py:164, 266`).  `--load-in-4bit` and `--load-in-8bit` reach the arguments of the model only with `pool` (`evo/actors.py:106-108`); the other two give `quantization_config` to
  `evaluate_model` as a further keyword, which hands it to `lm_eval.simple_evaluate` itself (`evo/strategy.py:160-174, 262-276`, `C147_others`).  `--trust-remote-code` reaches no evaluation on disk
  (`evo/helpers.py:64-75`, `C147_trust`).
