{"id": "C01", "title": "Executor yields the value of the dependency expression", "statement": "Running an Executor on an acyclic task graph yields, for every target that was not supplied as an already-cached result, exactly the value obtained by recursively executing the target's dependency tree (cached tasks contributing their cached value), whatever priorities, group labels, duplicate sub-tasks and insertion order the tasks have.", "quantifier": "every finite acyclic task graph, every task semantics, every target list, every set of cached results, every legal execution order", "why_tests_cant": "The set of graphs, orders, sharing patterns and cache contents is unbounded; a test fixes one of each.", "anchors": ["mergekit/graph.py:build_schedule", "mergekit/graph.py:Executor._run", "mergekit/graph.py:TaskUniverse"]}
{"id": "C02", "title": "Each needed task runs exactly once, nothing else runs", "statement": "During one run, every task reachable from the targets without passing through a cached task is executed exactly once, and no other task is executed.", "quantifier": "every finite acyclic task graph, target list and cache", "why_tests_cant": "Re-execution or skipping depends on sharing structure of arbitrary graphs; tests look at few fixed DAGs.", "anchors": ["mergekit/graph.py:build_schedule", "mergekit/graph.py:Executor._run"]}
{"id": "C03", "title": "Early discarding never removes a value that is still needed", "statement": "When a task is about to run, the value of each of its arguments is still held: the argument lookup in the run loop never fails, although values are discarded as soon as their last consumer has run.", "quantifier": "every acyclic graph, every step of every legal schedule, every cache", "why_tests_cant": "A premature discard only shows on graphs in which one value has consumers far apart; needs an invariant over all steps.", "anchors": ["mergekit/graph.py:Executor._run", "mergekit/graph.py:build_schedule"]}
{"id": "C04", "title": "Intermediate values are released as soon as no later task reads them", "statement": "After each executed step, the run loop holds a value computed by the run only if some not yet executed task of the schedule takes it as an argument (cached values nobody uses are kept to the end).", "quantifier": "every acyclic graph and every step of its schedule", "why_tests_cant": "Memory retention is not visible in results; leaking is a property of all intermediate states.", "anchors": ["mergekit/graph.py:Executor._run", "mergekit/graph.py:build_schedule"]}
{"id": "C05", "title": "Schedule respects group label and priority among ready tasks", "statement": "At every step the task picked is minimal for (group label, negated priority) among the tasks whose arguments are all available, and an execution order exists exactly when the graph has no cycle (a cyclic graph is reported as an error rather than executed partially).", "quantifier": "every finite task graph with every labelling of groups and priorities", "why_tests_cant": "Choice among ready tasks depends on the whole frontier at each step; cycles can have any length.", "anchors": ["mergekit/graph.py:build_schedule", "mergekit/graph.py:Task.priority", "mergekit/graph.py:Task.group_label"]}
{"id": "C06", "title": "Task interning identifies exactly the equal tasks", "statement": "Adding tasks to a universe in any order gives two tasks the same handle iff they are equal, never changes the task or arguments behind an already issued handle, and after a recursive add every argument of every issued handle is itself present.", "quantifier": "every sequence of additions of (nested) tasks", "why_tests_cant": "Quantifies over histories of additions with arbitrary sharing.", "anchors": ["mergekit/graph.py:TaskUniverse.add_task", "mergekit/graph.py:TaskHandle"]}
{"id": "C07", "title": "Multi-GPU execution gives the single-device results", "statement": "Running the multi-GPU executor yields for every target exactly the value the single-threaded executor yields, for every number of devices and every interleaving of the worker threads, the result queue and the completion signal.", "quantifier": "every task graph with every placement flags, every device count, every thread interleaving", "why_tests_cant": "Depends on scheduling of concurrent workers and of the queue-draining thread; a test observes one interleaving.", "anchors": ["mergekit/multigpu_executor.py:MultiGPUExecutor.run", "mergekit/multigpu_executor.py:MultiGPUExecutor._device_worker", "mergekit/multigpu_executor.py:MultiGPUExecutor._update_progress"]}
{"id": "C08", "title": "Main-thread-only tasks never reach a worker", "statement": "Partitioning puts each task in exactly one of: on the main thread (before or after the parallel phase), replicated per device, or parallel; tasks that must run on the main thread are never in the parallel or replicated part (otherwise construction fails); everything in the leading part depends only on the leading part and nothing outside the trailing part depends on a trailing task.", "quantifier": "every task graph and every assignment of main-thread / per-device flags", "why_tests_cant": "The partition is a fixpoint over arbitrary graphs.", "anchors": ["mergekit/multigpu_executor.py:MultiGPUExecutor._find_leading_tasks", "mergekit/multigpu_executor.py:MultiGPUExecutor._find_trailing_tasks", "mergekit/multigpu_executor.py:MultiGPUExecutor.__init__"]}
{"id": "C09", "title": "Dependent parallel tasks share a device and no parallel task is lost", "statement": "Each parallel task is assigned to exactly one device, two parallel tasks connected by dependencies are assigned to the same device, and no device's load exceeds the least loaded one by more than the largest connected group.", "quantifier": "every task graph, every device count greater than zero", "why_tests_cant": "Component structure and load balance for arbitrary graphs.", "anchors": ["mergekit/multigpu_executor.py:MultiGPUExecutor._assign_islands_to_devices"]}
{"id": "C10", "title": "Whatever is saved can be read back", "statement": "After any sequence of saves of distinctly named tensors followed by finalize into an empty directory, opening the directory finds an index naming exactly the saved tensors, and reading any of them in any order returns the saved value, for every shard size limit.", "quantifier": "every sequence of (name, size, value), every shard size limit including non-positive, every read history", "why_tests_cant": "Shard boundaries depend on the whole history of sizes; reader state depends on the whole read history.", "anchors": ["mergekit/io/tensor_writer.py:TensorWriter", "mergekit/io/lazy_tensor_loader.py:ShardedTensorIndex.from_disk", "mergekit/io/lazy_tensor_loader.py:LazyTensorLoader.get_tensor"]}
{"id": "C11", "title": "Shards respect the size limit", "statement": "With a positive limit, every shard written either holds a single tensor or has total size at most the limit; consecutive shards cannot be joined without exceeding it (first-fit), and tensors appear in the shards in the order saved.", "quantifier": "every sequence of tensor sizes and every limit", "why_tests_cant": "Boundary arithmetic over arbitrary histories.", "anchors": ["mergekit/io/tensor_writer.py:TensorWriter.save_tensor", "mergekit/io/tensor_writer.py:TensorWriter._flush_current_shard"]}
{"id": "C12", "title": "Index metadata is exact", "statement": "After finalize the recorded total size is the sum of the sizes of the saved tensors, the index maps each saved name to the one shard file that contains it, and final shard file names are pairwise distinct, distinct from the temporary names, and numbered consecutively out of the true shard count; no index is written for a single shard.", "quantifier": "every sequence of distinct saves and every shard limit", "why_tests_cant": "Counts, renames and maps over unbounded histories.", "anchors": ["mergekit/io/tensor_writer.py:TensorWriter.finalize", "mergekit/io/tensor_writer.py:TensorWriter._flush_current_shard"]}
{"id": "C13", "title": "An interrupted write is never mistaken for a complete model", "statement": "If the process stops at any point while writing to an empty directory, a reader opening the directory either reports that no model is present, or reports a missing file, or sees every tensor with its right value - never a proper subset of the tensors presented as a model.", "quantifier": "every save sequence, every crash point between file-system operations", "why_tests_cant": "Crash points are unboundedly many; tests cannot stop the process at each.", "anchors": ["mergekit/io/tensor_writer.py:TensorWriter.finalize", "mergekit/io/lazy_tensor_loader.py:ShardedTensorIndex.from_disk"]}
{"id": "C14", "title": "Background writing gives the same files as synchronous writing", "statement": "With asynchronous writes, for every number of writer threads and every order in which the queued shard writes complete, the directory after finalize is the same as with synchronous writes, and no shard is renamed before it was written.", "quantifier": "every interleaving of background shard writes, every thread count", "why_tests_cant": "Thread interleavings.", "anchors": ["mergekit/io/tensor_writer.py:TensorWriter._flush_current_shard", "mergekit/io/tensor_writer.py:TensorWriter.finalize"]}
{"id": "C15", "title": "Reading a tensor does not depend on what was read before", "statement": "The tensor returned for a name depends only on the files on disk, not on the earlier reads made through the same loader, whenever each tensor is stored in just the shard the index names.", "quantifier": "every checkpoint layout, every sequence of reads (including failing ones and alias lookups)", "why_tests_cant": "The loader keeps the last shard open: result correctness is a property of all histories.", "anchors": ["mergekit/io/lazy_tensor_loader.py:LazyTensorLoader.get_tensor"]}
{"id": "C16", "title": "Lazy pickle reads return the bytes at the recorded offset", "statement": "Reading a storage from a pickled checkpoint returns exactly the bytes at the requested file and offset, whatever files and offsets were opened or read before (forward seeks, backward seeks, file switches, failed opens).", "quantifier": "every sequence of open and read operations, every archive", "why_tests_cant": "Stateful stream positioning over unbounded histories.", "anchors": ["mergekit/io/lazy_unpickle.py:TorchArchiveReader.open_file", "mergekit/io/lazy_unpickle.py:DeferredLoad.execute"]}
{"id": "C17", "title": "The restricted unpickler only resolves whitelisted globals", "statement": "When a checkpoint is read with the restricted unpickler, every global resolved is one of the fixed accepted set; the first reference to anything else stops reading with an error before anything is called.", "quantifier": "every sequence of class references in a pickle stream", "why_tests_cant": "Hostile inputs are unbounded.", "anchors": ["mergekit/io/lazy_unpickle.py:LazyTorchUnpickler.find_class", "mergekit/io/lazy_unpickle.py:ACCEPTABLE_TYPES"]}
{"id": "C18", "title": "Tensor lookup order: name, aliases, tied names, conversion", "statement": "Loading a weight uses the first available of its canonical name, its aliases in order, its tied names in order, and finally checkpoint conversion; a missing required weight is an error and a missing optional one yields nothing.", "quantifier": "every set of available names, every weight description", "why_tests_cant": "Combinatorial in the set of available names.", "anchors": ["mergekit/io/tasks.py:LoadTensor._resolve_name", "mergekit/io/tasks.py:LoadTensor.execute"]}
{"id": "C19", "title": "Gathered inputs are neither lost nor mixed up", "statement": "Gathering a weight across models returns for each referenced model exactly its own tensor, and omits exactly the models in which the weight is absent.", "quantifier": "every set of model references and weight descriptions", "why_tests_cant": "Depends on injectivity of a string key over all model references.", "anchors": ["mergekit/io/tasks.py:GatherTensors"]}
{"id": "C20", "title": "Gradient parameters interpolate linearly and stay within their anchor values", "statement": "A numeric list given as parameter value evaluates, at relative depth t in [0,1], to the piecewise linear function through the list's points: it equals the i-th value at t = i/(n-1), is constant for constant lists, lies between the two neighbouring values, and in particular within the list's minimum and maximum. A list with a word in it is not interpolated: the i-th entry counts from depth i/(n-1) up to the next.", "quantifier": "every non-empty list of numbers, every t in [0,1]", "why_tests_cant": "Continuum of t and lists of any length.", "anchors": ["mergekit/config.py:evaluate_setting"]}
{"id": "C21", "title": "Conditional parameters: first matching filter wins", "statement": "A list of conditional values evaluates to the value of the first entry whose filter is empty, '*' or a substring of the tensor name; if none matches the parameter is treated as not given.", "quantifier": "every list of conditional entries and every tensor name", "why_tests_cant": "Order and overlap of filters are unbounded.", "anchors": ["mergekit/config.py:evaluate_setting", "mergekit/config.py:ConditionalParameter"]}
{"id": "C22", "title": "Parameter precedence", "statement": "The value of a merge parameter is taken from the most specific level that gives one: the model within the slice, then the slice, then the module, then the whole configuration; otherwise the default is used, or an error is raised when the parameter is required and has no value anywhere.", "quantifier": "every configuration and every parameter, model, tensor and depth", "why_tests_cant": "Four levels times conditional fall-through; unbounded configurations.", "anchors": ["mergekit/config.py:ConfigReader.parameter"]}
{"id": "C23", "title": "Configuration shape is validated", "statement": "A configuration is accepted only if it gives exactly one of models, slices and modules, and not both tokenizer settings; a module is accepted only if it gives exactly one of slices and models.", "quantifier": "every combination of present and absent sections", "why_tests_cant": "Decision table over all shapes including empty lists.", "anchors": ["mergekit/config.py:MergeConfiguration.validate_inputs", "mergekit/config.py:MergeConfiguration.validate_tokenizer", "mergekit/config.py:OutputModuleDefinition.validate_inputs"]}
{"id": "C24", "title": "Model references survive printing and parsing", "statement": "Parsing the printed form of a model reference gives back the same model path, revision and adapter (for paths free of the separator characters), strings with too many separators are rejected, and two different references never print alike.", "quantifier": "every model path, revision, adapter string", "why_tests_cant": "Strings are unbounded; separators may appear anywhere.", "anchors": ["mergekit/common.py:ModelPath", "mergekit/common.py:ModelReference"]}
{"id": "C25", "title": "Nested configuration values: what is set is what is read", "statement": "Setting a dotted key in a model configuration and reading the same key returns the value set, and leaves unrelated keys unchanged.", "quantifier": "every nested configuration, every dotted key", "why_tests_cant": "Unbounded nesting.", "anchors": ["mergekit/common.py:set_config_value", "mergekit/common.py:get_config_value"]}
{"id": "C26", "title": "Sizes with k/m/b suffix", "statement": "A size option consisting of decimal digits and an optional k, m or b suffix (either case) denotes the digits' value times 1e3, 1e6 or 1e9; anything else is rejected.", "quantifier": "every string", "why_tests_cant": "Strings are unbounded.", "anchors": ["mergekit/common.py:parse_kmb"]}
{"id": "C27", "title": "Output layers are numbered 0..n-1 and come from the requested input layers", "statement": "For a slice configuration the output model gets exactly the sum of the slice lengths many layers, numbered consecutively without gap or repetition; output layer j of slice s at offset o is built from layer (range start + o) of every source of that slice; and the layer count written to the output configuration is that same number.", "quantifier": "every list of slices with any ranges and sources", "why_tests_cant": "Unbounded numbers of slices and layers.", "anchors": ["mergekit/plan.py:MergePlanner.plan_slice", "mergekit/plan.py:MergePlanner.plan_layer", "mergekit/plan.py:MergePlanner.plan_module", "mergekit/merge.py:_model_out_config"]}
{"id": "C28", "title": "Slices whose sources differ in length are rejected", "statement": "Planning fails if and only if the sources of some slice do not all cover the same number of layers (or the slice has no source): no configuration is silently truncated to the shortest source.", "quantifier": "every slice definition", "why_tests_cant": "All combinations of ranges.", "anchors": ["mergekit/plan.py:MergePlanner.plan_slice"]}
{"id": "C29", "title": "A models configuration means one full-depth slice", "statement": "A configuration given as a list of models is planned as a single slice covering layers 0 to the layer count in every module, with each model's parameters kept and the base model added once if not listed.", "quantifier": "every list of models, base model and architecture", "why_tests_cant": "Unbounded model lists; base may appear anywhere or not.", "anchors": ["mergekit/plan.py:MergePlanner.normalize_config"]}
{"id": "C30", "title": "Depth parameter runs from 0 to 1", "statement": "Within a slice of n layers the relative depth of layer i is i/(n-1), so it lies in [0,1], is strictly increasing, is 0 for the first and 1 for the last layer.", "quantifier": "every slice length, every layer index", "why_tests_cant": "All lengths, including 1.", "anchors": ["mergekit/plan.py:MergePlanner.plan_slice"]}
{"id": "C31", "title": "Weights after the last layer are merged from every source of the last slice", "statement": "The weights following the final layer are merged from all models of the last slice, just as the weights before the first layer are merged from all models of the first slice.", "quantifier": "every configuration with any numbers of sources per slice", "why_tests_cant": "Breaks only when first and last slice differ in number of sources.", "anchors": ["mergekit/plan.py:MergePlanner.plan_module"]}
{"id": "C32", "title": "The finished checkpoint is complete", "statement": "Every weight of the output architecture is saved exactly once or was optional and absent from all inputs, and the checkpoint is finalized only after all saves, in every legal execution order.", "quantifier": "every configuration, architecture, execution order", "why_tests_cant": "All legal orders; a missing dependency edge shows up in some orders only.", "anchors": ["mergekit/plan.py:MergePlanner.plan_to_disk", "mergekit/io/tasks.py:SaveTensor", "mergekit/io/tasks.py:FinalizeModel"]}
{"id": "C33", "title": "Linear merge is the weighted mean", "statement": "A normalized linear merge of tensors of one shape is their weighted mean: each coordinate lies between the smallest and largest input for non-negative weights, identical inputs are returned unchanged, scaling all weights changes nothing, and the order of the models does not matter; unnormalized it is the weighted sum. Inputs of different shape are rejected.", "quantifier": "every number of models, every tensor, every weights with non-zero sum", "why_tests_cant": "Real-valued inputs, any number of models.", "anchors": ["mergekit/merge_methods/linear.py:LinearMergeTask"]}
{"id": "C34", "title": "Slerp meets its end points and stays between", "statement": "Spherical interpolation returns the first tensor at t=0 and the second at t=1, is symmetric under exchanging the tensors and replacing t by 1-t, and for (non-parallel) unit inputs returns unit vectors; nearly parallel inputs are interpolated linearly; other than two inputs (or a missing base) is an error and the base model is always the t=0 end.", "quantifier": "every pair of vectors of every dimension, every t", "why_tests_cant": "Continuous domain.", "anchors": ["mergekit/merge_methods/slerp.py:slerp", "mergekit/merge_methods/slerp.py:SlerpTask.execute"]}
{"id": "C35", "title": "Task arithmetic is base plus weighted deltas", "statement": "Task arithmetic returns base + lambda * sum of weight * (model - base) (divided by the weight sum where normalization is on and it is not negligible); no other models or lambda = 0 gives the base; one model with weight 1 and lambda 1 gives that model.", "quantifier": "every number of models, tensors, weights, lambda", "why_tests_cant": "Real-valued inputs, any number of models.", "anchors": ["mergekit/merge_methods/generalized_task_arithmetic.py:GTATask.execute", "mergekit/merge_methods/generalized_task_arithmetic.py:get_task_vectors"]}
{"id": "C36", "title": "TIES keeps only the deltas that agree with the elected sign", "statement": "With sign consensus, every coordinate of the merged delta has the elected sign (or is zero), is a weighted mean of just those deltas that have the elected sign, and deltas of the opposite sign have no influence on it.", "quantifier": "every number of models, every deltas and weights", "why_tests_cant": "Per coordinate sign patterns over any number of models.", "anchors": ["mergekit/merge_methods/generalized_task_arithmetic.py:get_mask", "mergekit/merge_methods/generalized_task_arithmetic.py:GTATask.execute"]}
{"id": "C37", "title": "Magnitude pruning keeps exactly the largest entries", "statement": "Pruning to density d < 1 keeps floor(d*n) entries unchanged, zeroes the others, and every kept entry is at least as large in magnitude as every dropped one; density >= 1 returns the tensor unchanged and an empty selection is refused.", "quantifier": "every tensor, every density", "why_tests_cant": "All tensors incl. ties.", "anchors": ["mergekit/sparsify.py:magnitude"]}
{"id": "C38", "title": "Outlier-trimming pruning keeps exactly the requested number of entries", "statement": "Breadcrumbs-style pruning keeps floor(d*n) entries (or refuses), dropping the floor(gamma*n) largest magnitudes when there are enough entries to drop, and the kept ones are contiguous in magnitude order.", "quantifier": "every tensor, density and gamma", "why_tests_cant": "All sizes; failure only at particular roundings.", "anchors": ["mergekit/sparsify.py:magnitude_outliers"]}
{"id": "C39", "title": "Sparsification rescaling preserves the chosen norm", "statement": "Rescaling a masked tensor with l1, l2 or linf makes the chosen norm equal to that of the original (unless the masked tensor is negligible or rescaling is off), keeps zeros at zero and never flips a sign.", "quantifier": "every tensor and mask", "why_tests_cant": "All tensors.", "anchors": ["mergekit/sparsify.py:rescaled_masked_tensor", "mergekit/sparsify.py:sparsify"]}
{"id": "C40", "title": "Rank-based drop probabilities are ordered and bounded", "statement": "For magnitude-rank-based stochastic pruning the keep probability of each entry lies in [density-epsilon, density+epsilon], larger magnitude never has smaller keep probability, and the average is the density; settings whose range leaves (0,1) are refused.", "quantifier": "every row, density, epsilon", "why_tests_cant": "All rows incl. ties and single element rows.", "anchors": ["mergekit/sparsify.py:della_magprune"]}
{"id": "C41", "title": "Nearswap moves each weight by at most t", "statement": "Nearswap changes no coordinate of the base by more than t, and moves it fully to the other model's value where the two differ by at most t.", "quantifier": "every pair of tensors, every t >= 0", "why_tests_cant": "Real-valued inputs.", "anchors": ["mergekit/merge_methods/nearswap.py:nearswap"]}
{"id": "C42", "title": "Model Stock interpolates between base and average", "statement": "The Model Stock ratio is t = N cos / (1 + (N-1) cos); for cosine in [0,1] it lies in [0,1], is increasing, the result lies on the segment between base and mean of the models; fewer than three tensors is refused unless the weight is optional.", "quantifier": "every number of models >= 2, every cosine value", "why_tests_cant": "Any N and any cosine.", "anchors": ["mergekit/merge_methods/model_stock.py:ModelStockMergeTask.execute"]}
{"id": "C43", "title": "Passthrough copies", "statement": "Passthrough requires exactly one input tensor and returns it unchanged (times scale when given).", "quantifier": "every input", "why_tests_cant": "Any number of inputs.", "anchors": ["mergekit/merge_methods/passthrough.py:PassthroughMergeTask.execute"]}
{"id": "C44", "title": "Embedding size mismatch is resolved to the common submatrix", "statement": "When embeddings of different row counts are merged, all inputs are cut to the common leading submatrix: all results have equal shape, that shape is the minimum in each dimension, and every entry equals the input's entry at the same position.", "quantifier": "every list of matrices", "why_tests_cant": "Any shapes.", "anchors": ["mergekit/merge_methods/rectify_embed.py:rectify_embed_sizes"]}
{"id": "C45", "title": "SCE returns a tensor of the shape of its inputs", "statement": "The SCE merge of tensors of one shape has that shape for every selection fraction, and equals the base where no element is selected.", "quantifier": "every number of models, tensors and select_topk", "why_tests_cant": "Fails only for degenerate selections.", "anchors": ["mergekit/merge_methods/sce.py:sce_merge", "mergekit/merge_methods/sce.py:sce_mask"]}
{"id": "C46", "title": "RAM averages shared changes and keeps unique ones", "statement": "RAM leaves coordinates that no model changed at the base value, takes the (rescaled) change for coordinates changed by exactly one model and the mean change for coordinates changed by several.", "quantifier": "every number of models, tensors, epsilon", "why_tests_cant": "Any change patterns.", "anchors": ["mergekit/merge_methods/ram.py:ram_merge"]}
{"id": "C47", "title": "Arcee fusion only ever picks from its two inputs", "statement": "Each coordinate of an Arcee Fusion result equals the base's or the other model's value, the latter exactly where its importance reaches the threshold; identical inputs give the input.", "quantifier": "every pair of tensors", "why_tests_cant": "Real-valued inputs.", "anchors": ["mergekit/merge_methods/arcee_fusion.py:ArceeFusionMergeTask.execute", "mergekit/merge_methods/arcee_fusion.py:DynamicThresholdFusion"]}
{"id": "C48", "title": "User-defined merge methods receive tensors and per-model parameters aligned", "statement": "A merge method defined through the decorator receives the i-th tensor together with the i-th model's parameter values, the base model first or separately as its signature asks, and a missing required base tensor is an error.", "quantifier": "every set of models and signature shape", "why_tests_cant": "Alignment for any subset of present models.", "anchors": ["mergekit/merge_methods/easy_define.py:merge_method"]}
{"id": "C49", "title": "The union tokenizer loses no token and keeps base ids", "statement": "The union vocabulary contains every token of every model, keeps the base model's token ids, assigns no id twice, and new tokens get the next free ids.", "quantifier": "every list of vocabularies", "why_tests_cant": "Any overlap pattern.", "anchors": ["mergekit/tokenizer/build.py:build_union_tokenizer"]}
{"id": "C50", "title": "Token permutations send every output token to its row in each model", "statement": "For each model and each output token id the permutation gives the token's row in that model, or marks it missing; distinct output tokens never share a row.", "quantifier": "every set of vocabularies", "why_tests_cant": "Any vocabularies.", "anchors": ["mergekit/tokenizer/build.py:build_tokenizer"]}
{"id": "C51", "title": "Re-indexed embeddings carry the right rows", "statement": "After re-indexing, each model's embedding for an output token is its own original row if it has the token, else the configured default (donor's row, base's row, or average of the models having it); a forced source overrides all models; rows for padding ids are the mean.", "quantifier": "every set of embedding matrices, permutations and token settings", "why_tests_cant": "Any vocabulary overlap.", "anchors": ["mergekit/tokenizer/embed.py:PermutedEmbeddings.execute"]}
{"id": "C52", "title": "Zero token source gives zero rows", "statement": "A token configured with source kind zero gets a zero embedding, and a token no model has gets a zero embedding.", "quantifier": "every token configuration", "why_tests_cant": "Only reached for particular configurations.", "anchors": ["mergekit/tokenizer/embed.py:PermutedEmbeddings.compute_default_embedding", "mergekit/tokenizer/config.py:ZeroEmbedding"]}
{"id": "C53", "title": "Padded vocabulary size agrees between embeddings and configuration", "statement": "With pad_to_multiple_of p, the embedding matrices and the vocabulary size written to the configuration agree, are a multiple of p, and exceed the tokenizer's size by at most p.", "quantifier": "every vocabulary size, every p > 0", "why_tests_cant": "All sizes.", "anchors": ["mergekit/tokenizer/embed.py:PermutedEmbeddings.execute", "mergekit/merge.py:_update_config_vocab"]}
{"id": "C54", "title": "Token prefixes", "statement": "The prefixes tried for a token are all its non-empty proper prefixes (with the same word-start marker, blank ones only if allowed), longest first; special tokens have none. Normalization keeps ordinary tokens and replaces a word-start prefix by a marker whose text form is a blank; different tokens stay different unless they are special tokens of one kind, so that every ordinary token keeps its id in the normalized vocabulary.", "quantifier": "every token", "why_tests_cant": "Strings are unbounded.", "anchors": ["mergekit/tokenizer/normalization.py"]}
{"id": "C55", "title": "Multi-document merges run in dependency order", "statement": "Given several named merge configurations, each is run after all merges it refers to; circular references and duplicate names are rejected; a reference to an intermediate merge is replaced by its output path and nothing else changes.", "quantifier": "every set of configuration documents", "why_tests_cant": "Any reference graph.", "anchors": ["mergekit/scripts/multimerge.py:make_tasks", "mergekit/scripts/multimerge.py:load_config", "mergekit/scripts/multimerge.py:patched_config"]}
{"id": "C56", "title": "Raw checkpoint merge honours the tensor-set mode", "statement": "Merging raw checkpoints in intersection mode produces exactly the tensors all models have, in union mode those any model has, and otherwise refuses mismatching sets.", "quantifier": "every set of tensor names per model", "why_tests_cant": "Any name sets.", "anchors": ["mergekit/scripts/merge_raw_pytorch.py:plan_flat_merge"]}
{"id": "C57", "title": "Mixture-of-experts output contains every expert in its slot", "statement": "In the written MoE checkpoint the expert-i slot of each layer holds the (scaled) feed-forward weights of the i-th configured expert, the router row i belongs to expert i, everything else is the base model's, and the shared expert (if configured) is written.", "quantifier": "every list of experts, every layer count", "why_tests_cant": "Any number of experts and layers.", "anchors": ["mergekit/moe/mixtral.py:MixtralMoE.write_model", "mergekit/moe/deepseek.py:DeepseekMoE.write_model", "mergekit/moe/common.py:initialize_io", "mergekit/scripts/moe.py:build"]}
{"id": "C58", "title": "MoE configuration checks", "statement": "A MoE configuration is refused exactly when experts_per_token is not between 1 and the number of experts, or (unless routing is random) an expert has no prompts, all experts have the same prompts, or all are the same model without the override.", "quantifier": "every configuration", "why_tests_cant": "Decision table over unbounded lists.", "anchors": ["mergekit/moe/config.py:is_bad_config"]}
{"id": "C59", "title": "Extracted LoRA reproduces the task vector", "statement": "With full rank the extracted pair multiplies to the difference of the models, with rank r to the truncated singular value decomposition, in both scale-distribution modes; each module's recorded rank and alpha are its true rank so that the adapter scale is 1.", "quantifier": "every matrix, every rank limit and epsilon", "why_tests_cant": "All matrices.", "anchors": ["mergekit/scripts/extract_lora.py:TaskVectorDecompositionTask.execute", "mergekit/scripts/extract_lora.py:make_config_dict"]}
{"id": "C60", "title": "Vocabulary transplant copies rows of shared tokens", "statement": "In the transplanted embedding every donor token that the original model also has gets the original model's row at the donor's id; other tokens get a matched row only when that kind of matching is enabled for this matrix, else an approximation; junk and out-of-range ids are zero; the matrix covers all donor ids.", "quantifier": "every pair of vocabularies and embeddings, every matching option", "why_tests_cant": "Any overlap pattern.", "anchors": ["mergekit/scripts/tokensurgeon.py:build_embedding_matrix", "mergekit/scripts/tokensurgeon.py:main"]}
{"id": "C61", "title": "Genomes describe complete models", "statement": "Every genotype of the right shape turns into a configuration whose slices cover layers 0..n-1 exactly once in order, with non-negative weights and densities within [0,1] unless allowed otherwise; for slerp the two highest weighted models are chosen with t in (0, 1/2].", "quantifier": "every genotype tensor, model count, layer count and granularity", "why_tests_cant": "Any shape and values.", "anchors": ["mergekit/evo/genome.py:ModelGenome.genotype_merge_config", "mergekit/evo/genome.py:ModelGenome._discrete_config_slices", "mergekit/evo/genome.py:ModelGenome._slerp_slices"]}
{"id": "C62", "title": "Filling missing parameters keeps the base model's tensor names", "statement": "Filling a base model with a sub-model's weights writes each base tensor name exactly once, with the sub-model's tensor for shared names and the base's own otherwise.", "quantifier": "every pair of name lists", "why_tests_cant": "Any names and prefixes.", "anchors": ["mergekit/scripts/fill_missing_params.py:copy_and_fill_missing_params", "mergekit/scripts/fill_missing_params.py:ParameterNamesUtils"]}
{"id": "C63", "title": "Architecture templates expand to distinct per-layer names", "statement": "Expanding an architecture's layer templates for different layers yields different tensor names, every placeholder is replaced by its number, and adding a module prefix keeps names distinct.", "quantifier": "every template, layer count", "why_tests_cant": "Strings and layer counts unbounded.", "anchors": ["mergekit/architecture/json_definitions.py:_template_substitution", "mergekit/architecture/base.py:_prefix_weight"]}
{"id": "C64", "title": "Cached adapter merges are complete models", "statement": "Whenever a merged-adapter cache entry is used it contains a completely written model for the same base, revision and adapter, whatever crashes happened in earlier runs.", "quantifier": "every history of runs and crash points", "why_tests_cant": "Crash points.", "anchors": ["mergekit/common.py:ModelReference.merged"]}
{"id": "C65", "title": "Layer shuffling covers all layers", "statement": "A shuffled configuration has one slice per output layer whose ranges are single layers; without full randomization slice i takes layer i of some input model, so the output has as many layers as the inputs.", "quantifier": "every random choice, every number of models and layers", "why_tests_cant": "All random outcomes.", "anchors": ["mergekit/scripts/layershuffle.py:main"]}
{"id": "C66", "title": "Greedy sparse approximation selects distinct points", "statement": "Orthogonal matching pursuit selects k different candidate points for each target and refuses k larger than the number of candidates.", "quantifier": "every target and candidate set, every k", "why_tests_cant": "Any data, any k.", "anchors": ["mergekit/tokensurgeon/omp.py:batch_omp"]}
{"id": "C67", "title": "Writing into a used directory yields the new model", "statement": "Writing a model into an output directory that already holds files leaves a directory that a reader opens as the new model.", "quantifier": "every earlier content of the directory, every sequence of saved tensors, both formats", "why_tests_cant": "Depends on the whole history of a directory: which files earlier runs, with other shard counts or formats, left behind.", "anchors": ["mergekit/io/tensor_writer.py:TensorWriter.finalize", "mergekit/io/lazy_tensor_loader.py:ShardedTensorIndex.from_disk"]}
{"id": "C68", "title": "Optional tensors are planned exactly if some input has them", "statement": "A tensor the architecture marks optional is merged like any other if at least one input stores it, under its name or one of its alternative names, and is left out if none does; it never makes planning fail.", "quantifier": "every optional weight, with or without alternative names, every set of input models and stored names", "why_tests_cant": "Any combination of which inputs store which name.", "anchors": ["mergekit/plan.py:MergePlanner.plan_tensor"]}
{"id": "C69", "title": "NuSLERP interpolates two models or two task vectors", "statement": "NuSLERP returns the first model when the second weighs 0 and the second when the first weighs 0, does not depend on the order of the two models, keeps unit length of rows (or whole tensors) of unit length, interpolates the differences when a base is given, uses one half when the weights cancel, and refuses any other number of models.", "quantifier": "every pair of tensors, every pair of weights, row-wise, column-wise and flattened", "why_tests_cant": "Real-valued inputs and angles.", "anchors": ["mergekit/merge_methods/nuslerp.py:nuslerp", "mergekit/merge_methods/nuslerp.py:NuSlerpTask.execute"]}
{"id": "C70", "title": "Multi-SLERP is spherical interpolation", "statement": "For two unit vectors Multi-SLERP with weights 1-t and t gives their spherical interpolation at t; in general the result's length is the weighted mean of the lengths and its direction the barycentre on the sphere; a base is subtracted first and added again.", "quantifier": "every list of tensors, weights and eps", "why_tests_cant": "Real-valued inputs; the tangent-space step cancels algebraically, which no numeric example shows as such.", "anchors": ["mergekit/merge_methods/multislerp.py:multislerp"]}
{"id": "C71", "title": "Karcher mean keeps lengths and does not depend on order", "statement": "A Karcher merge has the mean of its inputs' lengths as length, returns the common value of identical inputs, does not depend on the order of the inputs, and ignores negligible inputs for the direction.", "quantifier": "every list of tensors, every tolerance and iteration limit", "why_tests_cant": "Invariant of an iteration of any length on real vectors.", "anchors": ["mergekit/merge_methods/karcher.py:karcher_merge_tensors", "mergekit/merge_methods/karcher.py:KarcherTask.execute"]}
{"id": "C72", "title": "Random dropping keeps each entry with the given density", "statement": "DARE's random dropping draws every entry with exactly the configured density as probability of being kept, keeps the tensor for densities of 1 and more and refuses negative densities.", "quantifier": "every tensor, density and outcome of the random source", "why_tests_cant": "A single seeded run shows one mask, not the probability it was drawn with.", "anchors": ["mergekit/sparsify.py:bernoulli", "mergekit/sparsify.py:sparsify"]}
{"id": "C73", "title": "Raw checkpoint merges look parameters up like other merges", "statement": "In a merge of raw checkpoints each per-model parameter is the model's own setting if it has one for the tensor (also if that is zero), else the setting of the whole merge, else the default, and only a required parameter without a value is an error.", "quantifier": "every configuration and tensor name", "why_tests_cant": "Combinations of settings are unbounded.", "anchors": ["mergekit/scripts/merge_raw_pytorch.py:construct_param_dicts"]}
{"id": "C74", "title": "Skipped merges are complete", "statement": "A merge of a multi-document run that is skipped because its output directory is there has everything the merge would write, whatever earlier runs were interrupted and where.", "quantifier": "every history of runs and interruption points", "why_tests_cant": "Crash points.", "anchors": ["mergekit/scripts/multimerge.py:MergeModelTask.execute", "mergekit/merge.py:run_merge"]}
{"id": "C75", "title": "Checking what a checkpoint can provide agrees with loading it", "statement": "A tensor that is judged obtainable from the stored names of a checkpoint (directly or by converting its layout) can be loaded, and every tensor that loading would deliver is judged obtainable; numbered parts are put together in the order of their numbers.", "quantifier": "every registry of conversions, every set of stored names and every requested name", "why_tests_cant": "Interaction of two separately written loops over an open registry and arbitrarily many stored names.", "anchors": ["mergekit/architecture/conversion.py:can_convert_checkpoint_keys", "mergekit/architecture/conversion.py:convert_checkpoint_tensors", "mergekit/architecture/conversion.py:_natural_sort_key"]}
{"id": "C76", "title": "The layout of a mixture of experts can hold its configuration", "statement": "The output architecture chosen for a mixture of experts is the first in the order Mixtral, DeepSeek, Qwen, Qwen3 whose name starts with the one asked for (whatever the case of letters) and which can hold the models and shared experts configured; the run ends without output exactly when there is none, and a chosen layout can be written.", "quantifier": "every configuration and every assignment of model types", "why_tests_cant": "Decision table over unbounded lists of experts.", "anchors": ["mergekit/scripts/moe.py:select_output_arch", "mergekit/moe/deepseek.py:DeepseekMoE.supports_config", "mergekit/moe/qwen.py:QwenMoE.supports_config"]}
{"id": "C77", "title": "Fully random shuffles can use every layer", "statement": "With full randomization each layer of each given model can come up in a shuffle, and only layers that exist do.", "quantifier": "every list of models and weights and every outcome of the random source", "why_tests_cant": "What can never be drawn does not show in any number of runs.", "anchors": ["mergekit/scripts/layershuffle.py:main"]}
{"id": "C78", "title": "Legacy options mean the same in the configuration", "statement": "The legacy command merges the models listed, the base model last unless listed, each with the weight and density given for its position or the only one given; for slerp the only weight is the interpolation parameter; other numbers of values are refused.", "quantifier": "every list of models, weights and densities", "why_tests_cant": "Positions and lengths are unbounded.", "anchors": ["mergekit/scripts/legacy.py:main"]}
{"id": "C79", "title": "Adapter extraction covers what the options ask for", "statement": "Extracting an adapter decomposes exactly the linear layers and embeddings that the options select, saves the others at full rank exactly when the options or their kind ask for it, lists in the configuration what is saved at full rank, and modules listed by the user are saved at full rank.", "quantifier": "every model (list of modules) and every combination of options", "why_tests_cant": "Decision table over unbounded lists of modules with a list that grows while it is consulted.", "anchors": ["mergekit/scripts/extract_lora.py:plan_extraction", "mergekit/scripts/extract_lora.py:_should_extract"]}
{"id": "C80", "title": "Optional tensors that are missing are left out of an adapter", "statement": "An extracted adapter has, each once and under PEFT's names, the pair of every decomposed module with the difference of the biases, and weight and bias of every module saved at full rank; an optional tensor that the models lack is left out, a required one is an error.", "quantifier": "every pair of models, every architecture listing and every plan", "why_tests_cant": "Which tensors are missing differs between checkpoints.", "anchors": ["mergekit/scripts/extract_lora.py:plan_lora_module", "mergekit/scripts/extract_lora.py:plan_module_to_save", "mergekit/scripts/extract_lora.py:LoRAModuleSaveTask.execute"]}
{"id": "C81", "title": "Sparse approximation is the best combination of the points it picks", "statement": "Orthogonal matching pursuit picks, one after the other, the candidate that correlates most with what the best combination of the earlier ones leaves, and its coefficients give the combination of the picked points that is closest to the target; asking for more points keeps the earlier ones and does not enlarge the error; a target that is a combination of the picked points is met exactly, and then the new embedding is the image of the target under any linear map that takes the donor's picked embeddings to the original model's.", "quantifier": "every target, every candidate set whose picked points stay clear of one another's combinations, every k, any reorthogonalization interval", "why_tests_cant": "Optimality over all coefficient vectors, in any dimension.", "anchors": ["mergekit/tokensurgeon/omp.py:batch_omp", "mergekit/scripts/tokensurgeon.py:compute_new_embeddings"]}
{"id": "C82", "title": "Interpolated embeddings are proper weighted averages of the nearest tokens", "statement": "Common interpolation uses the k nearest shared tokens (all if k is not given) and is refused exactly when there are not that many; the weights sum to one and closer tokens weigh more; a blend is no farther from the target than the farthest token used; barycentric weights are the best among all with sum one, least-squares weights among all; a target in the affine hull of its neighbours is met exactly and maps to the image under any affine map between the models.", "quantifier": "every target and set of shared tokens, every k, metric and weighting scheme", "why_tests_cant": "Optimality and bounds over all real data.", "anchors": ["mergekit/tokensurgeon/common_interpolation.py:common_interp_approximate", "mergekit/tokensurgeon/common_interpolation.py:approximate_from_landmarks", "mergekit/tokensurgeon/common_interpolation.py:barycentric_weights"]}
{"id": "C83", "title": "Subword approximation combines the rows of the pieces", "statement": "The subword method gives a new token the sum, the mean, the weighted mean (later pieces weigh more in input embeddings, earlier ones in output embeddings) or the last (input) or first (output) of the rows of the pieces into which the original tokenizer cuts its text; a token that is a single piece gets the row of that piece with every method; it fails exactly when a piece has no row.", "quantifier": "every tokenizer, embedding, token and method", "why_tests_cant": "Any number of pieces.", "anchors": ["mergekit/tokensurgeon/subword.py:subword_approximate"]}
{"id": "C84", "title": "Landmark PCA carries rotations over", "statement": "If the original model's shared embeddings are the donor's rotated and shifted, the PCA method rotates and shifts the new tokens in the same way; in general it applies the rotation of the principal coordinates that brings the donor's shared embeddings closest to the original's.", "quantifier": "every set of shared tokens, every rotation and shift, any valid principal component and singular value decompositions", "why_tests_cant": "Any dimension; which principal axes a library returns is not determined when variances coincide.", "anchors": ["mergekit/tokensurgeon/pca.py:landmark_pca_approximate"]}
{"id": "C85", "title": "Buffered evaluation answers every caller with the result of their own genotype", "statement": "With the buffered strategy of mergekit-evolve every genotype submitted is merged once and evaluated once, its caller gets exactly one answer, which is the result of that genotype, whatever the order in which merges and evaluations complete; merges start in the order of submission; never more than the number of accelerators are being merged or waiting to be evaluated, nor being evaluated; the loop never idles while there is work; a genotype that fails affects only its own caller.", "quantifier": "every number of accelerators, every interleaving of submissions, completions and failures", "why_tests_cant": "The order of completions is chosen by a cluster scheduler; histories are unbounded.", "anchors": ["mergekit/evo/strategy.py:BufferedRayEvaluationStrategyActor.process_queue", "mergekit/evo/strategy.py:BufferedRayEvaluationStrategyActor.evaluate_genotype", "mergekit/evo/helpers.py:merge_model", "mergekit/evo/helpers.py:evaluate_model"]}
{"id": "C86", "title": "The score of a genotype is the weighted sum of its metrics, and the best one is kept", "statement": "The score of a merged model is the sum over the configured tasks of metric times weight, independent of the order in which tasks are listed, each benchmark being run once; a higher score is a lower cost for the optimiser; the configuration saved is that of the lowest cost reported; temporary merged models are removed after evaluation whether it succeeds or fails; an invalid genotype does not disturb the others of its population.", "quantifier": "every list of tasks, results, sequence of populations and outcome of merge and evaluation", "why_tests_cant": "Any number of tasks, duplicates, missing metrics, ties.", "anchors": ["mergekit/evo/helpers.py:_eval_model", "mergekit/evo/helpers.py:evaluate_model", "mergekit/evo/helpers.py:merge_model", "mergekit/scripts/evolve.py:main"]}
{"id": "C87", "title": "Optimising against common benchmarks is refused unless allowed", "statement": "A configuration of mergekit-evolve is refused exactly if benchmarks have not been explicitly allowed and some task's name starts with a known benchmark's name and does not end in '_train'; if allowed it is accepted with a warning for each such task and without warnings if there is none.", "quantifier": "every list of task names", "why_tests_cant": "All strings.", "anchors": ["mergekit/evo/config.py:check_for_naughty_config"]}
{"id": "C88", "title": "Genotypes evaluated in memory do not influence each other", "statement": "In-memory evaluation writes each merged model into the same loaded model; what is evaluated for a genotype does not depend on the genotypes evaluated before it.", "quantifier": "every sequence of merged models and every set of parameters", "why_tests_cant": "History dependence shows only after particular sequences.", "anchors": ["mergekit/evo/actors.py:InMemoryMergeEvaluator.evaluate"]}
{"id": "C89", "title": "An inferred architecture lists every tensor and requires only what every model has", "statement": "For models of an unknown architecture the tensors listed by the inferred one include every tensor of the checkpoint that is to be saved, layer numbers being replaced and restored exactly; a tensor is required only if every model has it in every layer and is optional if some model lacks it or it is tied; inference succeeds for every checkpoint with at least one such tensor.", "quantifier": "every set of tensor names, any number of stacks of layers, any numbers of layers, every set of models", "why_tests_cant": "Names, layer counts and the iteration order of python sets range over unbounded spaces.", "anchors": ["mergekit/architecture/auto.py:infer_architecture_info", "mergekit/architecture/auto.py:_template_present_in_all_models", "mergekit/architecture/auto.py:_target_present_in_all_models"]}
{"id": "C90", "title": "Different architectures are merged only if allowed", "statement": "If the models of a configuration have different architectures, the merge is refused unless mixing has been allowed; the architecture used does not depend on the order in which models are looked at; a model is recognised by the name of its architecture and, where several definitions share the name, its model type.", "quantifier": "every list of models and set of known architectures, both settings of the option", "why_tests_cant": "All combinations of known and unknown architectures, and the order of a python set.", "anchors": ["mergekit/architecture/__init__.py:get_architecture_info", "mergekit/architecture/__init__.py:arch_info_for_config"]}
{"id": "C91", "title": "The configuration written describes the merged model", "statement": "The configuration in the output directory is that of the base model except that the number of layers of each module is the number of layers merged, the vocabulary size the number of rows of the merged embeddings if a tokenizer was built, and the data type the one asked for.", "quantifier": "every configuration, architecture and source configuration, nested to any depth", "why_tests_cant": "Nested keys, several modules and any number of slices.", "anchors": ["mergekit/merge.py:_model_out_config", "mergekit/merge.py:_update_config_vocab", "mergekit/common.py:set_config_value"]}
{"id": "C92", "title": "The chat template is the one asked for", "statement": "With chat_template 'auto' the tokenizer gets the template most models have (the one under 'default' if there are several, surrounding space not counting), models without one or whose tokenizer cannot be loaded being left out, and keeps its own if there is none; a name of a template that comes with mergekit gives that template; anything else is taken literally if it has at least 20 characters and a brace and is refused otherwise; nothing is changed if none is asked for.", "quantifier": "every list of models and templates", "why_tests_cant": "Counting with ties over any number of models.", "anchors": ["mergekit/merge.py:_set_chat_template"]}
{"id": "C93", "title": "A merge that reports success has written all files", "statement": "When a merge returns normally the output directory has the checkpoint, its configuration, the model card and merge configuration if wanted, a tokenizer with the chat template asked for (built, copied unchanged or saved again) if wanted and available, and every file the architecture takes along that the donor has; a tokenizer that cannot be copied does not fail the merge, an invalid chat template does.", "quantifier": "every combination of options, donor files and failures", "why_tests_cant": "Combinations of failures and files present.", "anchors": ["mergekit/merge.py:run_merge", "mergekit/merge.py:_copy_tokenizer", "mergekit/merge.py:_copy_tagalong_files", "mergekit/merge.py:_get_donor_model"]}
{"id": "C94", "title": "Putting a vector at a position is a rotation", "statement": "Applying rotary positions turns each pair of entries of each head (entry j with the one half a head later) by position times the frequency of the pair: lengths and inner products stay the same, positions add up, position zero changes nothing, the inner product of two vectors depends only on how far apart their positions are, and the rotation matrix does the same.", "quantifier": "every vector, number of heads, even head size, base and position", "why_tests_cant": "Real vectors of any size.", "anchors": ["mergekit/tokensurgeon/rope_helpers.py:apply_rope", "mergekit/tokensurgeon/rope_helpers.py:apply_rope_theta", "mergekit/tokensurgeon/rope_helpers.py:llama_rope_rotationmat"]}
{"id": "C95", "title": "The position found from two vectors is the one that turns the first nearest to the second", "statement": "The angles found turn the first vector as near to the second as any angles do; the position found makes the first vector, put there, as near to the second as any position does, and is the position used if the second vector is the first one put at a position and scaled.", "quantifier": "every pair of vectors, number of heads, even head size, base", "why_tests_cant": "Real vectors of any size.", "anchors": ["mergekit/tokensurgeon/rope_helpers.py:estimate_theta", "mergekit/tokensurgeon/rope_helpers.py:estimate_position_id_projection", "mergekit/tokensurgeon/rope_helpers.py:estimate_pos_id_best"]}
{"id": "C96", "title": "Matching pursuit with positions approximates a token by rotated shared tokens", "statement": "The pursuit uses k different shared tokens, each at a position; it is refused exactly if there are fewer than k, or the heads do not divide the vectors of a model into parts of even size. More rounds never give a worse approximation of the donor's embedding, the final coefficients are the best for the tokens and positions chosen, the result uses the same tokens, positions and coefficients in the other model, and an embedding that is a multiple of a shared token's gives the same multiple of that token.", "quantifier": "every set of shared tokens, target, number of rounds and pair of models", "why_tests_cant": "Real vectors of any size, any number of rounds.", "anchors": ["mergekit/tokensurgeon/omp.py:batch_mp_rope", "mergekit/scripts/tokensurgeon.py:compute_new_embeddings"]}
{"id": "C97", "title": "Untrained tokens are recognised by the magikarp heuristic", "statement": "With a part q of 1/100, the heuristic returns the tokens of a vocabulary in their order without those that are unused (no id, an id beyond the matrix, a name that says reserved or unused, or known to be unused), those whose rows are among the shortest part q, and those whose rows are among the part q nearest to the mean of the unused rows (and within 60 degrees of it), in either matrix; nothing else is left out, and at most three times the part q of the used tokens are. It fails only for unused ids without rows.", "quantifier": "every vocabulary, every pair of matrices over the reals, every list of known unused tokens, every part q in [0,1]", "why_tests_cant": "Real matrices of any size; the claim counts tokens among all rows.", "anchors": ["mergekit/tokensurgeon/magikarp.py:well_trained_tokens"]}
{"id": "C98", "title": "With --magikarp only well-trained rows are carried over", "statement": "With the option, every token that is well-trained in both models has the original model's row in the output; every other token of the donor's vocabulary is approximated if it is well-trained in one of them and has a zero row if it is in neither. Without the option nothing is treated as untrained.", "quantifier": "every pair of models and vocabularies, every approximation, every batch size", "why_tests_cant": "Quantifies over vocabularies, matrices and approximation methods.", "anchors": ["mergekit/scripts/tokensurgeon.py:main", "mergekit/scripts/tokensurgeon.py:build_embedding_matrix", "mergekit/tokensurgeon/magikarp.py:well_trained_tokens"]}
{"id": "C99", "title": "Each method gives every new token a row made as documented", "statement": "Every method that succeeds gives one row for each new token: the mean of the original rows, zero, samples of a normal distribution with the original rows' mean and covariance (falling back to a regularised one), or, for interpolation and matching pursuit, the combination of shared tokens found for the donor's row, applied to the original rows of the same tokens. If the original rows of shared tokens are a linear image of the donor's, the new rows are the image of the approximations.", "quantifier": "every pair of vocabularies and matrices over the reals, every list of new tokens, every linear map, any library function for the combination", "why_tests_cant": "All matrices, sizes and linear maps; failure of the fallback depends on the rank of the matrix.", "anchors": ["mergekit/scripts/tokensurgeon.py:compute_new_embeddings", "mergekit/scripts/tokensurgeon.py:john_hewitt_init"]}
{"id": "C100", "title": "The sparse token basis carries new tokens between two models", "statement": "With the method stb, both models' bases are made of the same shared tokens (none of them junk) with the same coefficients, the basis being refused exactly if there are none or fewer than k; if the two models' rows correspond by a linear map, or by a shift, a new token that is represented exactly in the donor's basis gets the corresponding row.", "quantifier": "every pair of vocabularies and matrices over the reals, every k, linear map and shift, any library function for the pursuit", "why_tests_cant": "Real matrices of any size, all linear maps.", "anchors": ["mergekit/tokensurgeon/token_basis.py:compute_token_basis", "mergekit/tokensurgeon/token_basis.py:sparse_linear_basis", "mergekit/scripts/tokensurgeon.py:build_embedding_matrix"]}
{"id": "C101", "title": "Gates are made of the experts' prompts as the chosen mode says", "statement": "Building a mixture of experts, each expert's gate vector for each layer has length one (or is shorter than that only if there is next to nothing to scale) and the direction of the representation of its positive prompts minus that of its negative prompts: with cheap_embed the representation is the sum of the rows of all tokens of the prompts, scaled to length one (the order of tokens does not matter), with hidden or hidden_last the mean over the prompts of the model's state at the last token, with hidden_avg the mean over the prompts of the mean of the states at their tokens. With random and uniform_random the prompts do not matter. An unknown mode is refused. Padding added to make prompts of a batch equally long has no effect.", "quantifier": "every list of experts and prompts, every tokenizer, embedding matrix and model over the reals, any padding", "why_tests_cant": "Real vectors, prompts of any length and all batches; equality of the vectors needs algebra.", "anchors": ["mergekit/moe/router.py:get_gate_params", "mergekit/moe/router.py:get_hidden_states", "mergekit/moe/router.py:get_cheap_embedding", "mergekit/moe/router.py:tokenize_prompts"]}
{"id": "C102", "title": "Options for devices and writing mean what their help says", "statement": "An explicit device is used whatever else is given; auto stands for the first kind of accelerator found; without a device, --cuda and --gpu-rich mean cuda and otherwise cpu is used. --gpu-rich is the same as --cuda --low-cpu-memory --read-to-gpu --multi-gpu. Validated options given again stay the same. A merge computes on that device (on all accelerators with --multi-gpu), stores results there exactly with --low-cpu-memory and reads weights to it exactly with --read-to-gpu. With --async-write, --write-threads is the number of threads used for writing.", "quantifier": "every combination of options given or left out, any text as device, every machine, every number of threads", "why_tests_cant": "Infinitely many devices, numbers and combinations of options; a test of one command does not show that another ignores an option.", "anchors": ["mergekit/options.py:MergeOptions", "mergekit/merge.py:run_merge", "mergekit/plan.py:MergePlanner.plan_to_disk", "mergekit/io/tasks.py:TensorWriterTask", "mergekit/moe/common.py:initialize_io", "mergekit/scripts/merge_raw_pytorch.py:main", "mergekit/scripts/extract_lora.py:main"]}
{"id": "C103", "title": "A transplanted vocabulary is described by the configuration written", "statement": "The configuration written by mergekit-tokensurgeon is the model's, with the number of rows of the new matrices as size of the vocabulary (where the architecture says it is kept) and with the donor's ids of special tokens and side of padding where the donor has them; nothing else changes. Both matrices have the same number of rows, the donor's vocabulary fits, and there are no rows beyond the number of tokens or the largest id. It fails exactly if the configuration has no place for the size.", "quantifier": "every pair of configurations, every key for the size, every pair of vocabularies and matrices", "why_tests_cant": "Configurations nested to any depth; every vocabulary.", "anchors": ["mergekit/scripts/tokensurgeon.py:get_out_arch_info", "mergekit/scripts/tokensurgeon.py:main"]}
{"id": "C104", "title": "A merge from configuration to files gives the weighted means", "statement": "Running a merge to disk ends without an exception exactly when every planned weight can be read from its models and merged. The output directory is then a checkpoint listing exactly the names of the planned weights (optional ones found in no model excepted), and reading a name gives the merge method's result on the models' own tensors of that weight, in the data type asked for - whatever order tasks are executed in, with or without writer threads, for every shard size and format, whatever was read before. For a linear merge of a list of models each with a number as weight this is the mean of the models' tensors weighted as configured.", "quantifier": "every plan, every set of models that can be told apart, every merge method as a function of the gathered tensors, every order of execution, every writer setting; configurations without tokenizer settings", "why_tests_cant": "Joins planning, scheduling, loading, merging, writing and reading: tests run a few merges of tiny random models with one executor order and one writer setting.", "anchors": ["mergekit/merge.py:run_merge", "mergekit/plan.py:MergePlanner.plan_to_disk", "mergekit/graph.py:Executor", "mergekit/io/tasks.py:GatherTensors", "mergekit/io/tasks.py:SaveTensor", "mergekit/io/tasks.py:FinalizeModel", "mergekit/merge_methods/linear.py:LinearMergeTask", "mergekit/io/tensor_writer.py:TensorWriter", "mergekit/io/lazy_tensor_loader.py:LazyTensorLoader"]}
{"id": "C105", "title": "The order in which models are listed does not matter", "statement": "For every merge method, listing the same models with the same parameters in another order gives the same tensor, or an error in both cases. The result of methods written as functions of tensors does not depend on the order in which a python set of models is iterated.", "quantifier": "all lists of models and tensors, all permutations, all weights and parameters; exact arithmetic", "why_tests_cant": "A test tries a few permutations of two or three small tensors; the claim is about all permutations, shapes and values, including inputs whose directions cancel.", "anchors": ["mergekit/merge_methods/linear.py:LinearMergeTask", "mergekit/merge_methods/generalized_task_arithmetic.py:GTATask", "mergekit/merge_methods/ram.py", "mergekit/merge_methods/sce.py", "mergekit/merge_methods/slerp.py", "mergekit/merge_methods/nuslerp.py", "mergekit/merge_methods/multislerp.py", "mergekit/merge_methods/karcher.py", "mergekit/merge_methods/model_stock.py", "mergekit/merge_methods/arcee_fusion.py", "mergekit/merge_methods/easy_define.py"]}
{"id": "C106", "title": "Merging copies of one model gives that model", "statement": "If all merged models have the same tensor, every merge method returns that tensor; if they all equal the base model, the base model's tensor.", "quantifier": "all tensors, any number of copies, all weights (not summing to zero) and other parameters; exact arithmetic", "why_tests_cant": "A test tries one tensor of ordinary size; the claim fails only for particular magnitudes, parameters or numbers of models.", "anchors": ["mergekit/merge_methods/generalized_task_arithmetic.py:GTATask", "mergekit/merge_methods/ram.py", "mergekit/merge_methods/sce.py", "mergekit/merge_methods/nearswap.py", "mergekit/merge_methods/slerp.py:slerp", "mergekit/merge_methods/nuslerp.py:nuslerp", "mergekit/merge_methods/multislerp.py:multislerp", "mergekit/merge_methods/model_stock.py:ModelStockMergeTask"]}
{"id": "C107", "title": "A model of weight zero has no influence", "statement": "Adding a model with weight zero to a merge does not change the result.", "quantifier": "all lists of models, every place of the added model, its tensor arbitrary, all parameters; exact arithmetic", "why_tests_cant": "Tests compare a few weights; influence through shapes, masks, normalisation or numbers of models shows only for particular inputs.", "anchors": ["mergekit/merge_methods/linear.py:LinearMergeTask", "mergekit/merge_methods/generalized_task_arithmetic.py:GTATask", "mergekit/merge_methods/multislerp.py:multislerp", "mergekit/merge_methods/rectify_embed.py:rectify_embed_sizes"]}
{"id": "C108", "title": "Stacking layers: from the configuration to the files", "statement": "A passthrough merge whose slices have one source each ends without an exception, and the output directory lists exactly the weights of the output architecture that are not left out; what is read for a weight of layer j is the source's own tensor of layer start + offset of the slice the layer falls in (of the first slice before the layers, of the last slice after them), times the scale the configuration gives it at that depth (most specific section first, filters and gradients applied), and unchanged if no scale is given.", "quantifier": "all configurations in the form of slices, models or modules with one source per slice, all architectures with distinct weight names, all stored tensors, all scales, every schedule of tasks and writer threads, all shard sizes, both formats", "why_tests_cant": "A test stacks one model of a few layers with one scale; the claim is about every configuration, every place of a layer in it and every schedule.", "anchors": ["mergekit/plan.py:MergePlanner", "mergekit/merge_methods/passthrough.py:PassthroughMergeTask", "mergekit/config.py:ConfigReader", "mergekit/merge.py:run_merge", "mergekit/io/tasks.py:SaveTensor", "mergekit/io/tensor_writer.py:TensorWriter"]}
{"id": "C109", "title": "Spherical interpolation: from the configuration to the files", "statement": "A slerp merge with a base model whose slices have one source, or two of which one is the base model, ends without an exception, and the output directory lists exactly the weights of the output architecture that are not left out; what is read for a weight is the point at fraction t of the arc from the base model's own tensor to the other model's, in whichever order the two are listed, where t is what the configuration gives for that output tensor at its depth; with one source it is the source's tensor.", "quantifier": "all configurations in the form of slices, models or modules, all architectures with distinct weight names, all stored tensors of equal shapes, all t (also outside of 0..1), every schedule of tasks and writer threads, all shard sizes, both formats; exact arithmetic", "why_tests_cant": "A test merges one small pair with one t; the claim is about every depth, gradient and filter, every order of models and every schedule.", "anchors": ["mergekit/plan.py:MergePlanner", "mergekit/merge_methods/slerp.py:SlerpTask", "mergekit/config.py:ConfigReader", "mergekit/merge.py:run_merge", "mergekit/io/tasks.py:SaveTensor"]}
{"id": "C110", "title": "Task arithmetic, TIES, DARE, breadcrumbs and DELLA: from the configuration to the files", "statement": "A merge by task_arithmetic, ties, dare_ties, dare_linear, breadcrumbs, breadcrumbs_ties, della or della_linear whose base model is among the sources of every slice ends without an exception, and the output directory lists exactly the weights of the output architecture that are not left out; what is read for a weight is the base model's own tensor plus the combined changes of the other models, each first sparsified as the method says, with the weight, density, gamma, epsilon, lambda, normalize and rescale which the configuration gives for that model and tensor at its depth, or the method's defaults where it gives none.", "quantifier": "all configurations in the form of slices, models or modules, all eight registered variants, all architectures with distinct weight names, all stored tensors, all random bits, every schedule of tasks and writer threads, all shard sizes, both formats; numbers for which the sparsification is defined; exact arithmetic", "why_tests_cant": "A test merges small models with one setting of the parameters; the claim is about every depth, gradient, filter and default of every variant, all random draws and every schedule.", "anchors": ["mergekit/merge_methods/generalized_task_arithmetic.py:GTATask", "mergekit/merge_methods/registry.py:STATIC_MERGE_METHODS", "mergekit/sparsify.py:sparsify", "mergekit/plan.py:MergePlanner", "mergekit/config.py:ConfigReader", "mergekit/merge.py:run_merge"]}
{"id": "C111", "title": "The model card tells what was merged", "statement": "The README of a merge lists every model of the configuration once, except the base model, which is named in the sentence about the method instead (for slerp all are listed); its metadata name exactly the models and adapters that are taken for ones of the hub; the configuration is shown as it was given, line by line, and is the same text as in mergekit_config.yml. It can be written exactly if no path is empty and the hub answers for every relative path with at most one slash that exists here.", "quantifier": "all configurations and all orders in which the models are gone through, all method names, all states of the local disk and the hub, all configuration texts without a line of three backquotes; names without line breaks", "why_tests_cant": "A test compares one card with an expected text; the claim is about every set of models, adapters and answers of the hub, and every text given as configuration.", "anchors": ["mergekit/card.py:generate_card", "mergekit/card.py:is_hf", "mergekit/card.py:extract_hf_paths", "mergekit/card.py:modelref_md", "mergekit/card.py:method_md", "mergekit/config.py:MergeConfiguration.referenced_models", "mergekit/merge.py:run_merge"]}
{"id": "C112", "title": "Every merge method is given what the configuration says", "statement": "Whatever the merge method, each tensor written is the method's result for the models' own tensors at that place and the settings that the configuration has for it: for a setting of the method, that of the slice, else of the module, else of the whole configuration, else the method's default; for a setting per model that of the source first; a gradient of values is read at the tensor's layer. The merge completes if the tensors exist, required settings are given (those per model not for the base model), and the method works on them.", "quantifier": "all merge methods (any function of the settings and tensors), all configurations of all kinds, all architectures, all models, all execution orders, shard sizes", "why_tests_cant": "A test merges with one method and one configuration; the claim is about all methods, also those a user adds, and every place of the merge.", "anchors": ["mergekit/plan.py:MergePlanner", "mergekit/config.py:ConfigReader", "mergekit/merge_methods/base.py:MergeMethod", "mergekit/merge.py:run_merge", "mergekit/graph.py:Executor", "mergekit/io/tasks.py"]}
{"id": "C113", "title": "Every method of the guide merges as described, from configuration to files", "statement": "The names a configuration can give as merge_method are exactly those of the guide; each has the documented settings, global or per model, with the documented defaults. A merge to disk with RAM, RAM+TL, SCE, NearSwap, NuSLERP, Model Stock, Arcee Fusion, Karcher or multi-SLERP completes and writes at every place the described combination of the models' own tensors: with the settings that count there, the base model taken apart from the others, in whatever order the models are gone through.", "quantifier": "all configurations and architectures; all tensors of one shape per place; all iteration orders of sets; all settings in the domain of the method", "why_tests_cant": "A test runs a method function on a few tensors; the claim joins registration, settings, planning, loading, the method and writing for every configuration.", "anchors": ["mergekit/merge_methods/registry.py", "mergekit/merge_methods/__init__.py:get", "mergekit/merge_methods/easy_define.py:merge_method", "mergekit/merge_methods/ram.py", "mergekit/merge_methods/sce.py", "mergekit/merge_methods/nearswap.py", "mergekit/merge_methods/nuslerp.py", "mergekit/merge_methods/model_stock.py", "mergekit/merge_methods/arcee_fusion.py", "mergekit/merge_methods/karcher.py", "mergekit/merge_methods/multislerp.py", "docs/merge_methods.md"]}
{"id": "C114", "title": "A decorated function becomes a method with its arguments as settings, or is refused", "statement": "A function registered with @merge_method whose arguments follow the documented requirements can be used as a merge method: its arguments that are numbers or truth values are settings of the merge, its lists of numbers settings per model, required exactly if they have no default, and it is called with all of its arguments. A function that does not follow them (no list `tensors`, a `base_tensor` of another kind, an argument without or with another annotation, a default of a list that is no number) is refused. Other methods stay as they are.", "quantifier": "all lists of arguments with annotations and defaults, all registries, all names", "why_tests_cant": "Tests register a few well-formed functions; the claim is about every signature.", "anchors": ["mergekit/merge_methods/easy_define.py:merge_method", "mergekit/merge_methods/easy_define.py:__merge_method", "mergekit/merge_methods/registry.py"]}
{"id": "C115", "title": "A merge that builds a tokenizer writes, for each token, that token's rows merged", "statement": "With `tokenizer_source` or `tokenizer` in the configuration, the merge writes the tokenizer built from the models, and in each embedding and output-head tensor the row of each token of that tokenizer is the merge method's result for that token's rows: for a model that has the token, its own row; otherwise the row that the token's settings name, else the base model's, else the mean over the models that have it. A linear merge gives the weighted mean of these rows. All other tensors are merged as without a tokenizer. If the base model is none of the models merged at such a tensor, the merge stops with an error.", "quantifier": "all merge methods, configurations, architectures, models, vocabularies, settings of tokens, execution orders of the tasks, orders of python sets", "why_tests_cant": "A test compares a few tokens of small vocabularies for one method; the claim is about every row of every token for any vocabularies and any method, up to the files.", "anchors": ["mergekit/plan.py:MergePlanner", "mergekit/tokenizer/build.py:BuildTokenizer", "mergekit/tokenizer/embed.py:PermutedEmbeddings", "mergekit/merge.py:run_merge", "mergekit/io/tasks.py"]}
{"id": "C116", "title": "A merge to disk on several devices writes what a merge on one device writes", "statement": "Running a merge with several devices either cannot be told from running it on one: no exception, the same output directory (each required weight readable with the merge method's result, the tokenizer built kept), whatever the division of the tasks among devices, the orders in which the devices execute theirs, and the interleavings of their results and writes. The executor can be constructed for every merge and every number of devices of at least one.", "quantifier": "all merge methods, plans, numbers of devices, divisions of tasks, execution orders, interleavings of messages and of writes, shard sizes and formats", "why_tests_cant": "A test needs several devices and sees one interleaving; the failure depends on when the completion signal overtakes the result queue.", "anchors": ["mergekit/multigpu_executor.py:MultiGPUExecutor", "mergekit/merge.py:run_merge", "mergekit/io/tasks.py", "mergekit/io/tensor_writer.py"]}
{"id": "C117", "title": "A merged model has every weight its architecture requires", "statement": "When a configuration is accepted, every weight that the architecture of the output requires, in each of its modules and for as many layers as that module gets, is among the weights written; a module the architecture does not have is refused.", "quantifier": "all configurations (models, slices, modules), architectures, numbers of modules and layers", "why_tests_cant": "Tests use single-module architectures or name all modules; that nothing can be left out is a statement about all configurations.", "anchors": ["mergekit/plan.py:MergePlanner.normalize_config", "mergekit/plan.py:MergePlanner.plan_module", "mergekit/config.py:MergeConfiguration"]}
{"id": "C118", "title": "Merges run one after another in one process do not influence each other", "statement": "Every merge, whatever was run before it in the same process, reads each model from where its own options say, as the files are when it runs, and asks for a model's type with its own trust_remote_code option, on whatever thread its tasks run.", "quantifier": "all sequences of set-ups, uses of models and reads by any threads, all changes of the files between them, all options", "why_tests_cant": "Tests start with fresh temporary models in each case; the effect of the state a process keeps shows only over sequences of merges and changes of the files.", "anchors": ["mergekit/io/tasks.py:LoaderCache", "mergekit/merge.py:run_merge", "mergekit/io/tasks.py:LoadTensor"]}
{"id": "C119", "title": "Models of any supported architecture can be merged, weight by weight by name", "statement": "For every architecture mergekit ships a definition of, and any number of layers, models that have the layers of the output can be merged: the merge is planned without errors, and each weight the definition lists, layer by layer under the name it has for that layer, is in the output under its own name, computed from the tensors the models store under that name (or one of the aliases); a weight marked optional is left out exactly when no model stores it.", "quantifier": "all shipped architecture definitions, all numbers of layers per module, all models and stored tensors, all merges of listed models with or without a base model", "why_tests_cant": "The definitions are data read at run time; tests merge small models of one or two of the architectures, and a clash of names or a wrong alias shows only in the others or at certain numbers of layers.", "anchors": ["mergekit/architecture/__init__.py:get_architecture_info", "mergekit/_data/architectures", "mergekit/plan.py:MergePlanner", "mergekit/merge.py:run_merge"]}
{"id": "C120", "title": "Merging in memory gives the tensors merging to disk gives", "statement": "When candidates are merged into a model kept in memory instead of to a directory, the merge and copying end without an exception exactly if the merge to disk does and the kept model has a parameter for each merged weight, and then each of these parameters holds the tensor which would have been written under that name, in the type asked for; all other parameters are left as they were. This is so whatever order the tasks are executed in.", "quantifier": "all plans, models, merge methods, executor orders, data types, sets of parameters of the kept model, with or without a built tokenizer", "why_tests_cant": "Both ways share the planner but not the last steps (what is returned, casts, copying by name); tests merge one small configuration one way and compare nothing with the other.", "anchors": ["mergekit/plan.py:MergePlanner.plan_in_memory", "mergekit/io/tasks.py:ReturnTensor", "mergekit/evo/actors.py:InMemoryMergeEvaluator", "mergekit/graph.py:Executor.run"]}
{"id": "C121", "title": "Which devices a merge uses makes no difference to what is written", "statement": "With any device for computations and any device for keeping tensors between steps (as chosen by --cuda, --device and --low-cpu-memory), a task that uses accelerators sees all its tensors, however deeply nested in dicts, lists and tuples, on the first and any other task sees them on the second, whatever device they were loaded to; so if the methods compute the same on one device as on another, the run ends alike and the same tensors are written under the same names. Tensors which share memory, as when a layer is stacked twice, are written like others, with or without --clone-tensors.", "quantifier": "all task graphs and merges to disk, all devices, nested values, executor orders, tensors sharing memory", "why_tests_cant": "Tests run on one device, the CPU; a tensor left behind on another device shows only on machines with accelerators and only in nested values or rare tasks.", "anchors": ["mergekit/graph.py:Executor._run", "mergekit/graph.py:Executor._move_tensors", "mergekit/merge.py:run_merge", "mergekit/io/tensor_writer.py:TensorWriter._save_st"]}
{"id": "C122", "title": "A recipe of several merges gives the nested merge", "statement": "mergekit-multimerge on a recipe whose merges refer to each other runs without an exception exactly if every merge in it can be done, and then the directory of each merge holds what its configuration gives with the merges it refers to in their places, in whatever order the merges were run; other directories are not touched. This holds if the directories of results were absent before, held results of the same recipe, or leftovers that are not taken for results. A run that was interrupted can be taken up again with the same command and ends with the same results. Lazily, a directory that holds a configuration and weights is kept as it is.", "quantifier": "all recipes without circular references, all ways merges may succeed, fail and depend on what they read, all orders of execution, all contents of the disk at the start, all points of interruption", "why_tests_cant": "Tests run one recipe of two merges in an empty directory; which merge is done first, what an interrupted run leaves and what later runs make of it is never exercised.", "anchors": ["mergekit/scripts/multimerge.py:MergeModelTask.execute", "mergekit/scripts/multimerge.py:make_tasks", "mergekit/scripts/multimerge.py:main"]}
{"id": "C123", "title": "What rounding does to a merge", "statement": "In a data type with rounding to nearest, a linear merge with weights that are not negative is the weighted mean (with the weights as that type has them) up to a few units of precision times the mean magnitude of the entries; task arithmetic is the base plus the weighted differences up to a few units of precision times the result and the magnitudes of the weighted differences. Rounding never reverses an order: larger entries give no smaller result of a linear merge. Bit for bit, a passthrough merge keeps numbers which exist in the types of the merge and the output, a single model of weight one comes back from a linear merge, entries in which all models agree with the base stay those of the base in task arithmetic and its relatives, and nearswap takes the entries within its threshold. One model of weight one over a base comes back from task arithmetic bit for bit in all entries between half and twice that of the base, but not in general: in bfloat16 an entry of 2^-20 over a base entry of 1 becomes 0.", "quantifier": "all data types (float32, float16, bfloat16 and any number of digits), all ways of breaking ties and of accumulating sums, all tensors, weights, numbers of models", "why_tests_cant": "Tests compare a few random tensors with a tolerance; error bounds and bitwise identities concern all numbers of a data type.", "anchors": ["mergekit/merge_methods/linear.py:LinearMergeTask.execute", "mergekit/merge_methods/generalized_task_arithmetic.py:GTATask.execute", "mergekit/merge_methods/generalized_task_arithmetic.py:get_task_vectors", "mergekit/merge_methods/nearswap.py:nearswap_merge", "mergekit/merge_methods/passthrough.py:PassthroughMergeTask.execute"]}
{"id": "C124", "title": "A mixture-of-experts run leaves a complete model that can be merged further", "statement": "When mergekit-moe finishes, the output directory holds a model of the chosen layout: config.json names it, counts exactly the experts, has the number of experts per token asked for (between 1 and the number of experts), the data type asked for or else the base model's, and every other entry of the base model's configuration; the tensors are those of the layout in that type, routers with one row per expert; the tokenizer and the input file are there if wanted. Made of Llama, Mistral or Qwen3 models, the mixture can be merged again: from its config.json mergekit finds its own definition of the mixture, every required tensor of it is there and no other tensor. A run whose configuration is refused touches nothing; a run that fails leaves no tensors, tokenizer or recipe. An acceptable configuration of readable models is written whether or not the output directory exists, the sizes recorded are those of the tensors written, and the tokenizer is the base model's.", "quantifier": "all configurations, models, numbers of layers and experts, options, contents of the output directory, behaviours of the configuration classes that keep the entries concerned", "why_tests_cant": "No test runs mergekit-moe (it needs models and the transformers library); agreement between the layouts' names, the definitions shipped and config.json concerns every number of layers and experts.", "anchors": ["mergekit/scripts/moe.py:build", "mergekit/scripts/moe.py:main", "mergekit/moe/mixtral.py:MixtralMoE._generate_config", "mergekit/moe/mixtral.py:MixtralMoE.write_model", "mergekit/moe/deepseek.py:DeepseekMoE._generate_config", "mergekit/moe/qwen.py:QwenMoE._generate_config", "mergekit/moe/qwen3.py:Qwen3MoE._generate_config", "mergekit/moe/common.py:select_dtype"]}
{"id": "C125", "title": "A search reports the best genotype it tried, whichever way genotypes are evaluated", "statement": "mergekit-evolve reports the first of the genotypes with the highest score among all it tried, both when the search ends and when it is interrupted, and best_config.yaml holds the configuration of that genotype. Which genotypes are tried depends only on the optimiser and the scores: the pool, serial and buffered strategies, any number of actors and any order of completion give the same; so do actors that merge in memory, whatever they evaluated before. The models are converted once to bfloat16 in the storage directory: that changes neither what merges read nor, but for the references, the configuration found, and existing directories are left as they are. A genotype that describes no merge is reported as having no score, a search started again after an interruption uses completely converted models, and models keep the architecture asked for.", "quantifier": "all genomes, scores, optimisers, numbers of generations, strategies in each generation, numbers of actors, assignments of genotypes to actors, orders of completion, models, contents of the storage directory", "why_tests_cant": "Scores come from hours of merging and evaluating on several machines; the tests run neither the strategies nor the script, and cannot go through the orders in which work is handed out and completed.", "anchors": ["mergekit/scripts/evolve.py:main", "mergekit/scripts/evolve.py:_reshard_model", "mergekit/evo/strategy.py:ActorPoolEvaluationStrategy.evaluate_genotypes", "mergekit/evo/strategy.py:BufferedRayEvaluationStrategy.evaluate_genotypes", "mergekit/evo/strategy.py:SerialEvaluationStrategy.evaluate_genotypes", "mergekit/evo/strategy.py:evaluate_genotype_serial", "mergekit/evo/actors.py:OnDiskMergeEvaluator.evaluate_genotype", "mergekit/evo/actors.py:InMemoryMergeEvaluator.evaluate"]}
{"id": "C126", "title": "A merge evaluated with vLLM is the whole merge", "statement": "When genotypes are merged into a model kept in vLLM, whose parameters hold several weights each (query, key and value; gate and up), every merged tensor is put where it belongs: into the parameter of its name, or else into its part of the parameter that holds it; the other parts and all other parameters stay as they were. For all shipped definitions but Qwen2-VL/2.5-VL and any number of layers the names say which of the two it is, and no part's parameter is the name of another tensor. A tensor that has no parameter and is part of none is an error. The longest input is the number of positions, cut to the sliding window and to 8192.", "quantifier": "all shipped definitions, numbers of layers, merged tensors, contents of the parameters, loaders of parts, numbers of positions and windows", "why_tests_cant": "Needs vLLM and a GPU, so it is not tested; the words are searched and replaced in names, which for all names of all definitions and numbers of layers cannot be tried out.", "anchors": ["mergekit/evo/actors.py:InMemoryMergeEvaluator.evaluate", "mergekit/evo/actors.py:InMemoryMergeEvaluator._maybe_init_model"]}
{"id": "C127", "title": "Matching pursuit with resets gives as many different candidates as asked for, and no worse ones for more rounds", "statement": "The approximation of embeddings by matching pursuit with resets is refused if fewer rounds than places or more places than candidates are asked for. Otherwise it ends, and gives exactly as many candidates as asked for, all different and each with a coefficient, whatever the order of the replacements. The combination is no further from the target than nothing is, more candidates are no worse than fewer, and more rounds of replacement are no worse than fewer.", "quantifier": "all inner product spaces (so all numbers of dimensions), candidates, targets, numbers of places and rounds, permutations, and ways of choosing among equally good candidates", "why_tests_cant": "The order is random and the claims are about all orders and all numbers of rounds; a test sees single runs, and that a replacement makes the result worse depends on the geometry of the candidates.", "anchors": ["mergekit/tokensurgeon/omp.py:batch_mp_resets"]}
{"id": "C128", "title": "Command lines mean what they say", "statement": "Each of the ten commands accepts exactly the lines that can be written with its documented options: flags written in full, options with their value as the next word or after an equals sign, single letters joined in one word, arguments in between, and anything after a double dash. If help is not asked for, all required options are there, the number of arguments is right and all numbers are numbers, the command runs, and otherwise it does not. Then every option has what was last written for it (all values in order for options that can be repeated, the count for -v), everything not mentioned has its documented default, the function of the command gets exactly its parameters, and a merge runs with the flags and the device so given, --gpu-rich standing for its four flags.", "quantifier": "all ten commands and all lists of words", "why_tests_cant": "There are infinitely many command lines; a test tries a few. A clash between an option of a command and one of the shared options, or a parameter without an option, shows up only when that option is used.", "anchors": ["mergekit/options.py:add_merge_options", "mergekit/scripts/run_yaml.py:main", "mergekit/scripts/legacy.py:main", "mergekit/scripts/layershuffle.py:main", "mergekit/scripts/bakllama.py:main", "mergekit/scripts/moe.py:main", "mergekit/scripts/tokensurgeon.py:main", "mergekit/scripts/extract_lora.py:main", "mergekit/scripts/evolve.py:main", "mergekit/scripts/merge_raw_pytorch.py:main", "mergekit/scripts/multimerge.py:main"]}
{"id": "C129", "title": "An extracted adapter gives the fine-tuned model back", "statement": "Loading the adapter that mergekit-extract-lora wrote onto the base model and merging it gives the fine-tuned model's weight for every module that was to be decomposed or saved at full rank, as long as the difference of each decomposed weight has at most the rank allowed (and otherwise no adapter of that rank comes closer), and the base model's weight for every module that was left out; biases of these modules come back as well. An adapter that was written without an error can be loaded.", "quantifier": "all models, options, decompositions and ranks", "why_tests_cant": "It takes the plan, the decomposition, the names of the tensors, the configuration and the library that reads them together; a test extracts from one model and compares a few tensors.", "anchors": ["mergekit/scripts/extract_lora.py:main", "mergekit/scripts/extract_lora.py:plan_extraction", "mergekit/scripts/extract_lora.py:TaskVectorDecompositionTask.execute", "mergekit/scripts/extract_lora.py:LoRAModuleSaveTask.execute", "mergekit/scripts/extract_lora.py:make_config_dict"]}
{"id": "C130", "title": "A configuration means what its document says, and survives writing and reading", "statement": "A configuration read from a document has exactly the values that the document gives under the documented keys (models in order, references by text or by fields, settings as numbers, lists or conditional values, tokens), with its inputs given in exactly one way; documents that say something that makes no sense are refused. What to_yaml writes for it, or what a script writes with the defaults included, is read as the same configuration.", "quantifier": "all documents that can be read, with any texts, numbers, lists and maps", "why_tests_cant": "Documents are arbitrarily nested, most fields have several forms, and forms are told apart by rules of the validation library; tests read a handful of examples.", "anchors": ["mergekit/config.py:MergeConfiguration", "mergekit/config.py:MergeConfiguration.to_yaml", "mergekit/config.py:OutputModuleDefinition", "mergekit/common.py:ModelReference.validate_string", "mergekit/common.py:ModelReference.serialize", "mergekit/tokenizer/config.py:TokenizerConfig"]}
{"id": "C131", "title": "mergekit-yaml does what its command line and its document say", "statement": "mergekit-yaml starts a merge exactly if its command line is right, the file it names is there, and its document says a configuration with a method that there is; then it merges with that configuration, the method of that name with its declared parameters, and the options given, into the directory given. In particular, for a document that lists models of one architecture and size with weights and asks for a linear merge, the files written in the end hold exactly the weights of the architecture, each the weighted mean of the tensors of that name.", "quantifier": "all command lines, files and documents; all shipped architectures but those of C63 and BertModel, any number of layers, models, shapes and weights", "why_tests_cant": "The claim spans the parser, the document, the planner, the executor and the writer; tests run a few tiny models.", "anchors": ["mergekit/scripts/run_yaml.py:main", "mergekit/merge.py:run_merge", "mergekit/plan.py:MergePlanner.__init__", "mergekit/config.py:MergeConfiguration", "mergekit/merge_methods/linear.py:LinearMergeTask"]}
{"id": "C132", "title": "The report of a genotype has all its numbers under names that tell what they are", "statement": "What a search reports of a genotype (genotype_to_param_arrays) has, for every model, parameter and filter, the numbers of all layer groups under the name made of the model, the parameter and the filter; no number is lost and nothing else is reported.", "quantifier": "all genome definitions (any number of models, filters and layer groups) and genotypes, given as vectors or tensors", "why_tests_cant": "Names are put together from texts the user chooses; whether two of them coincide depends on paths and filters that tests do not vary.", "anchors": ["mergekit/evo/genome.py:ModelGenome.genotype_to_param_arrays", "mergekit/evo/genome.py:ModelGenome._to_torch", "mergekit/scripts/evolve.py:progress_callback"]}
{"id": "C133", "title": "Task arithmetic, TIES, DARE, breadcrumbs and DELLA with mergekit-yaml give base plus combined changes, from the command line to the files", "statement": "If the command line of mergekit-yaml is right and the file it names is a document that names one of the methods task_arithmetic, ties, dare_ties, dare_linear, breadcrumbs, breadcrumbs_ties, della or della_linear and a base model, and lists models of one architecture and size with their numbers (weights, densities and so on, for a model or for all), then the command starts a merge into the directory given which succeeds, and the files written hold exactly the weights of the architecture, each the base model's tensor plus the combined changes of the other models, every change sparsified with the numbers for its model and, with rescaling, brought back to its sum of magnitudes.", "quantifier": "all command lines, files and such documents; all shipped architectures but those of C63 and BertModel, any number of layers, models, shapes and numbers that allow the sparsification; any outcome of the random draws", "why_tests_cant": "The claim spans the parser, the document, the planner, the executor, the arithmetic and the writer; tests run a few tiny models and look at sizes only.", "anchors": ["mergekit/scripts/run_yaml.py:main", "mergekit/merge.py:run_merge", "mergekit/merge_methods/generalized_task_arithmetic.py:GTATask", "mergekit/sparsify.py:sparsify", "mergekit/merge_methods/registry.py:STATIC_MERGE_METHODS"]}
{"id": "C134", "title": "Stacking layers with mergekit-yaml copies exactly the layers asked for, renumbered, from the command line to the files", "statement": "If the command line of mergekit-yaml is right and the file it names is a document for the method passthrough that lists slices, each a range of layers of one model of a shipped architecture, with a scale or without, then the command starts a merge into the directory given which succeeds, and the files written hold exactly the weights of the architecture with as many layers as the ranges together: those before the layers as in the first slice's model, those after them as in the last one's, and those of each layer as in the layer at that place in the ranges, under the new number - multiplied with the scale where one is given, unchanged otherwise.", "quantifier": "all command lines, files and such documents; all shipped architectures of a single module but BertModel; any number of slices and layers, any scales", "why_tests_cant": "Whether a stack is right depends on sums over all earlier slices, on templates for names and on everything from the command line to the shards; tests check one or two short stacks for sizes.", "anchors": ["mergekit/scripts/run_yaml.py:main", "mergekit/merge.py:run_merge", "mergekit/plan.py:MergePlanner.plan_slice", "mergekit/merge_methods/passthrough.py:PassthroughMergeTask", "mergekit/architecture/json_definitions.py:JsonModuleArchitecture.layer_weights"]}
{"id": "C135", "title": "Spherical interpolation with mergekit-yaml gives the point asked for on each arc, from the command line to the files", "statement": "If the command line of mergekit-yaml is right and the file it names is a document for the method slerp that names a base model and lists slices, each a range of layers of the base model and an equally long one of another model of the same shipped architecture, in either order, with a t that is a number, numbers along the layers, or either of these by parts of the tensors' names, then the command starts a merge into the directory given which succeeds, and the files written hold exactly the weights of the architecture with as many layers as the slices together, each the point at fraction t of the arc from the base model's tensor to the other model's: for t the value of the first condition whose filter is part of the tensor's name, at the depth of the layer in its slice (from 0 for its first to 1 for its last layer, 0 for what is outside of the layers).", "quantifier": "all command lines, files and such documents; all shipped architectures of a single module but BertModel; any number of slices and layers, any conditions and numbers", "why_tests_cant": "The value of t depends on names, depths and the order of conditions, the arc on the tensors and the result on everything from the command line to the shards; tests merge two tiny models with a constant t and look at shapes.", "anchors": ["mergekit/scripts/run_yaml.py:main", "mergekit/merge.py:run_merge", "mergekit/plan.py:MergePlanner.plan_slice", "mergekit/merge_methods/slerp.py:SlerpTask.execute", "mergekit/config.py:evaluate_setting"]}
{"id": "C136", "title": "Models with experts are merged weight by weight, those of every expert included, also in slices", "statement": "If slices of layers of AFMoE or GLM4-MoE models are merged, the files written hold exactly the weights of a model of that architecture with as many layers as the slices together - embeddings, norms, attention, routers, shared experts and for AFMoE three matrices of each expert, leaving out optional ones that no model has -, and each is merged from the weights with the same name within the layer, in the layers at the same place of the slices.", "quantifier": "all slices of any number of models and layers, any number of experts and of dense first layers; every order of execution, shard size and both formats", "why_tests_cant": "Layers are put together from lists built by code (numbers of experts and dense layers come from configurations), matched by position; tests have no model of these architectures with slices.", "anchors": ["mergekit/architecture/moe_defs.py:AfmoeModuleArchitecture.layer_weights", "mergekit/architecture/moe_defs.py:Glm4MoeModuleArchitecture.layer_weights", "mergekit/plan.py:MergePlanner.plan_layer"]}
{"id": "C137", "title": "mergekit-legacy merges what its options say: by the method named, each model with its weight and density", "statement": "`mergekit-legacy OUT --merge A --merge B ... [--base-model M] [--weight ..]... [--density ..]... [--method ..]` writes to OUT the same merge as `mergekit-yaml` with the configuration that lists the models in the order given (the base model last unless listed), a single weight or density standing for all models and several going to the models by position; for linear merges and the task arithmetic family the files hold exactly the weights of the model, each the combination with these numbers, and for slerp the points at the fraction `--weight` of the arcs from the base model's tensors to the other model's; `--weight` defaults to 1.0 for all models, and `--naive-count` counts signs instead of summing.", "quantifier": "all lines of arguments, all models of shipped architectures, any number of models; every order of execution, shard size and both formats", "why_tests_cant": "The options go through argument parsing, a document built by hand, validation, parameter lookup and the planner; only all of them together show that the default weight of the help does not exist and that --naive-count can never work.", "anchors": ["mergekit/scripts/legacy.py:main", "mergekit/merge.py:run_merge"]}
{"id": "C138", "title": "mergekit-layershuffle writes a model each of whose layers is an unchanged layer of one of the models named", "statement": "`mergekit-layershuffle OUT -m A -m B ... -w .. -w ..` writes to OUT a model with as many layers as A, in which layer i is layer i of one of the models with a weight; embeddings come from the model of the first layer, head and last norm from that of the last. With `--full-random` the layers are any layers of the models, in any order, for each model its number of layers times its weight. Nothing but exactly these weights is in the files, all unchanged. With `--dry-run` no merge is started.", "quantifier": "all lines of arguments, all random draws, any number of models and layers; every order of execution, shard size and both formats", "why_tests_cant": "The result is random, and what is written depends on parsing, the draws, the configuration built from them, the planner and the writer; tests check a few seeds at most.", "anchors": ["mergekit/scripts/layershuffle.py:main", "mergekit/merge.py:run_merge"]}
{"id": "C139", "title": "The README of an extracted adapter says what it was made from and how", "statement": "After mergekit-extract-lora, README.md names the fine-tuned model and the base model (with links and metadata for exactly those taken for models of the hub), warns exactly if the vocabularies differ in size, saying the size to which embeddings must be resized, and shows a command that gives the same adapter again when copied into a shell.", "quantifier": "all references with or without adapters, all command lines, sizes of vocabularies and answers of the hub", "why_tests_cant": "Cards are text put together by hand; whether the command read back is the one that was run depends on every argument, and tests do not read cards at all.", "anchors": ["mergekit/card.py:generate_card_lora", "mergekit/scripts/extract_lora.py:main"]}
{"id": "C140", "title": "mergekit-extract-lora: from the command line to an adapter that gives the fine-tuned model back", "statement": "For a command line that names a base model and a fine-tuned model, the command writes in the named directory an adapter that, loaded on the model its adapter_config.json names (after resizing its embeddings if the vocabularies differ), has for every module the weight of the fine-tuned model, as far as the rank allows; every option means what its help says, mistakes are refused, and the command of the README run again gives the same files.", "quantifier": "all command lines, module trees, tensors of any size, references with revisions and adapters, ranks and thresholds", "why_tests_cant": "The result depends on option parsing, references, the choice of modules, decompositions and names in the files together; tests run one tiny pair of models.", "anchors": ["mergekit/scripts/extract_lora.py:main", "mergekit/scripts/extract_lora.py:plan_extraction", "mergekit/scripts/extract_lora.py:make_config_dict", "mergekit/common.py:ModelReference.merged"]}
{"id": "C141", "title": "mergekit-moe: from the command line and the document to the files of the mixture", "statement": "For a command line that names a configuration file and a directory, the document says the mixture it is read as (defaults: gate mode hidden, two experts per token) and a mistake in it is refused; a run that succeeds leaves in the directory exactly the tensors of the chosen layout with one router row per expert in the order of the document, a configuration that counts the experts, and the tokenizer and card unless not wanted; a right document whose models store what is needed succeeds, also for models named with an adapter; loading in four or eight bits only matters for gate modes that look at hidden states.", "quantifier": "all command lines, documents, numbers of experts and layers, tensors, gate modes and model references", "why_tests_cant": "The result depends on option parsing, validation, the choice of the layout, the routers and the writers together; tests build one or two tiny mixtures with fixed documents.", "anchors": ["mergekit/scripts/moe.py:main", "mergekit/moe/config.py:MoEMergeConfig", "mergekit/moe/config.py:Expert", "mergekit/moe/common.py:initialize_io", "mergekit/moe/router.py:get_gate_params"]}
{"id": "C142", "title": "mergekit-tokensurgeon: from the command line to the files of the model with the new vocabulary", "statement": "For a command line that names a model, a donor and a directory, the options mean what they say; the directory then holds the model's weights unchanged except for the embeddings, the donor's tokenizer, and the model's configuration with the new size of the vocabulary and the donor's ids of special tokens; in both embeddings a token that the two tokenizers share keeps the model's row at the donor's id, so a model given its own tokenizer keeps every row; the rows of other tokens are those of the approximation with the noise and scaling asked for; code from the models' repositories is only run if --trust-remote-code is given.", "quantifier": "all command lines, models, architectures, tokenizers, tensors, approximation methods and batch sizes", "why_tests_cant": "The result depends on option parsing, normalisation of two vocabularies, matching, batching and the writers together; tests run a few tiny models with one method each.", "anchors": ["mergekit/scripts/tokensurgeon.py:main", "mergekit/scripts/tokensurgeon.py:build_embedding_matrix", "mergekit/scripts/tokensurgeon.py:get_out_arch_info", "mergekit/scripts/tokensurgeon.py:get_embedding_info"]}
{"id": "C143", "title": "mergekit-pytorch: from the command line to the tensors written", "statement": "For a command line that names a document and a directory, the options mean what they say: with --tensor-intersection the tensors that all checkpoints have are merged and written, each once and under its name, with --tensor-union those of any; each is what the method named in the document makes of the tensors of that name of the models and the base model in the type asked for, with the parameters set for the model, else for the merge, else by default; a linear merge gives the weighted average (or sum) of the checkpoints; the files written hold exactly these tensors, whatever the shard size, format and order of writing.", "quantifier": "all command lines, documents, checkpoints, methods, types, listings of sets of names, shard sizes and orders of writing", "why_tests_cant": "The result depends on the parsing of options, the validation of the document, lookups of parameters, the intersection of the files' names, the method and the writer together; tests merge one or two tiny checkpoints with equal names.", "anchors": ["mergekit/scripts/merge_raw_pytorch.py:main", "mergekit/scripts/merge_raw_pytorch.py:plan_flat_merge", "mergekit/scripts/merge_raw_pytorch.py:construct_param_dicts"]}
{"id": "C144", "title": "mergekit-multi: from the command line to the directories written", "statement": "For a command line that names a file of several merges, each merge is executed after the merges it refers to by name, and its result is what merging its configuration gives when each such name stands for the directory that merge's result is in; nothing else in the configurations is changed. The merge without a name goes to the path given with --out-path and those with names to directories in --intermediate-dir; results already there are kept unless --no-lazy is given. Two merges of the same name, a merge without a name and without a path for it, and merges that refer to each other in a circle are refused before anything is merged.", "quantifier": "all command lines, files with any number of merges, configurations, ways of merging, contents of the disk beforehand and orders of execution", "why_tests_cant": "The result depends on the parsing of the line, the validation of each document, the replacement of references at any depth of a configuration, and the order in which tasks are executed; tests run one recipe of two or three merges.", "anchors": ["mergekit/scripts/multimerge.py:main", "mergekit/scripts/multimerge.py:patched_config", "mergekit/scripts/multimerge.py:make_tasks", "mergekit/scripts/multimerge.py:MergeModelTask"]}
{"id": "C145", "title": "bakllama: a file of layer slices becomes the stack of these layers", "statement": "For a command line of bakllama that names a file of layer slices and a directory, the model written consists of the layers of the slices in order, each taken unchanged from the model named, except that the down projections of slices with a scale are multiplied by it; embeddings and head come from the models named for them. The same slices written as a configuration for mergekit-yaml are understood the same way.", "quantifier": "all command lines, files, numbers of slices, models and contents of the disk", "why_tests_cant": "No test runs the command; whether any of the infinitely many files is accepted is a question about the validation of all of them.", "anchors": ["mergekit/scripts/bakllama.py:main", "mergekit/scripts/bakllama.py:BakllamaConfig", "mergekit/config.py:MergeConfiguration"]}
{"id": "C146", "title": "mergekit-evolve: from a command line to the final model", "statement": "A command line of mergekit-evolve begins a search exactly if it is right, names a file of YAML that says a search (models, a method with parameters to search for, tasks; a base model where the method needs one), none of the tasks is a benchmark unless that is asked for, the ways of loading models go together, the models can be converted, and the layers divide into groups evenly. Each model is converted once, under the storage path, and what is on disk otherwise stays. Whatever the optimiser asks for and however the genotypes are scored, whether the search ends or is interrupted, the final model is the merge of the first of the best genotypes tried, of the models named in the document and with the options of the line, in final_model under the storage path, unless no final model is wanted.", "quantifier": "all command lines, documents, models, contents of the disk, optimisers, scores, strategies and numbers of generations", "why_tests_cant": "A search takes days and many models; which of the genotypes ends up on disk under which names depends on the whole history of scores and on what earlier runs left.", "anchors": ["mergekit/scripts/evolve.py:main", "mergekit/scripts/evolve.py:_reshard_model", "mergekit/evo/config.py:EvolMergeConfiguration", "mergekit/evo/genome.py:ModelGenomeDefinition"]}
{"id": "C147", "title": "mergekit-evolve: settings reach the evaluation of every model", "statement": "Whichever strategy evaluates the models of a search, every evaluation is of each task of the document once, found in the directories given, with the number of shots, the limit, the batch size and the way of making prompts that were asked for, by the library asked for; the model is loaded in bfloat16, with the number of bits asked for, and its own code is run if that was allowed. Data are shuffled exactly if the document says so, once per download. With vLLM in memory, sequences are as long as the model's positions, its window and 8192 allow. Only evaluation in memory together with a strategy that cannot do it is refused.", "quantifier": "all command lines, documents, strategies, paths of models, numbers of positions and windows, and numbers of times a process is patched", "why_tests_cant": "Each strategy builds the call of the evaluation library anew; tests run one strategy with default settings on a tiny model, where a setting that is dropped changes no result they look at.", "anchors": ["mergekit/evo/helpers.py:evaluate_model", "mergekit/evo/helpers.py:_eval_model", "mergekit/evo/strategy.py:BufferedRayEvaluationStrategyActor", "mergekit/evo/strategy.py:evaluate_genotype_serial", "mergekit/evo/actors.py:OnDiskMergeEvaluator", "mergekit/evo/actors.py:InMemoryMergeEvaluator", "mergekit/evo/monkeypatch.py:monkeypatch_lmeval_shuffle"]}
{"id": "C148", "title": "mergekit-legacy, mergekit-layershuffle: the configuration shown makes the same merge", "statement": "With --print-yaml, mergekit-legacy and mergekit-layershuffle print a configuration, and with --write-yaml the latter writes it to the file named (only then; an empty name counts as none). A command that fails because its arguments or its configuration are not valid shows and writes nothing. For models whose names contain no separators, blanks or quotes, mergekit-yaml given that configuration makes the same merge with the same method. After a --dry-run it makes the merge that the line without --dry-run would have made with the same random numbers.", "quantifier": "all command lines, models, weights, random numbers, orders of a full shuffle, and command lines of mergekit-yaml", "why_tests_cant": "The configuration goes through validation, serialisation without defaults and validation again, with random choices in between; tests look at one configuration and do not merge twice.", "anchors": ["mergekit/scripts/layershuffle.py:main", "mergekit/scripts/legacy.py:main", "mergekit/scripts/run_yaml.py:main", "mergekit/config.py:MergeConfiguration"]}
{"id": "C149", "title": "nearswap, Arcee fusion, SCE, RAM, RAM+, NuSLERP and Multi-SLERP from a base and model stock with mergekit-yaml give what is described, from the command line to the files", "statement": "mergekit-yaml with a document that names one of these methods, a base model (listed among the models or not) and models of one supported architecture and size writes exactly the weights of the architecture to the directory named, each the result of the method for the weights of that name: nearswap stays within t of the base and takes the other model's value where it is that near; Arcee fusion takes the other model's entries from a threshold of importance on; SCE adds the weighted mean of the selected changes with the sign of their sum; RAM takes the mean of the models that changed an entry, RAM+ multiplies what only one changed; model stock goes from the base to the mean by the ratio given by the mean cosine of the changes. NuSLERP with a base adds to it the point between the changes of the two other models at the share of the second weight. Multi-SLERP with a base adds the normalised weighted sum of the directions of the changes times the weighted mean of their lengths (and the cosine of eps), if the weights can be normalised and that sum is not negligible. Parameters not given have the defaults of the guide. (Tensors of one name have one shape; two models for nearswap and Arcee fusion; t is not negative; for SCE at least one entry is selected; for RAM+ epsilon is positive and at most 1, alpha not negative; for model stock there are at least two models besides the base and the ratio is defined.)", "quantifier": "all command lines, documents, supported architectures, numbers of models and layers, tensors, orders in which a method gets its models", "why_tests_cant": "The result depends on the whole way from the options through the document, the plan and the task order to the method and the writer; tests of methods call them on a pair of small tensors.", "anchors": ["mergekit/scripts/run_yaml.py:main", "mergekit/merge.py:run_merge", "mergekit/plan.py:MergePlanner", "mergekit/merge_methods/nearswap.py", "mergekit/merge_methods/arcee_fusion.py", "mergekit/merge_methods/sce.py", "mergekit/merge_methods/ram.py", "mergekit/merge_methods/nuslerp.py", "mergekit/merge_methods/multislerp.py", "mergekit/merge_methods/model_stock.py"]}
