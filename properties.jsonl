{"id": "C01", "title": "Chunk write/read round trip", "statement": "Writing a list of (data id, nested log) entries with MemoryMapHandler.write and opening the directory with LogDataset gives back, at index i, the i-th id and a nested dict whose array at every path of the write order is exactly (shape, dtype and bytes) the array that was written.", "quantifier": "every list of entries with distinct ids, every write order of prefix-free paths, every array shape and content, one dtype per chunk", "why_tests_cant": "The offsets depend on all earlier arrays; a test fixes a handful of shapes and dtypes (the repository test reads with the same offsets it wrote).", "anchors": ["logix/logging/mmap.py:MemoryMapHandler.write", "logix/logging/log_loader.py:LogDataset.__getitem__", "logix/logging/log_loader_utils.py:get_flatten_item,unflatten_tensor"]}
{"id": "C02", "title": "No saved sample is lost or invented over a whole logging session", "statement": "With synchronous flushing (num_workers <= 1), after any sequence of saved batches followed by finalize, the log dataset contains exactly the ids that were logged, in logging order, each with exactly the arrays logged for it.", "quantifier": "every sequence of saved batches (any number, any sizes) and intermediate finalizes, every flush threshold, all ids distinct", "why_tests_cant": "The chunk boundaries depend on the whole history of batch sizes and the threshold.", "anchors": ["logix/logging/log_saver.py:LogSaver.buffer_write,flush,finalize", "logix/logging/logger.py:HookLogger.save_log", "logix/logging/log_loader.py:LogDataset"]}
{"id": "C03", "title": "The stored dataset does not depend on the flush threshold", "statement": "Two sessions that log the same batches (distinct ids, synchronous flushing) and finalize with different flush thresholds produce datasets with the same ids in the same order and the same arrays.", "quantifier": "every batch history and every pair of flush thresholds", "why_tests_cant": "Requires comparing unboundedly many chunkings of the same history.", "anchors": ["logix/logging/log_saver.py:LogSaver.flush", "logix/config.py:LoggingConfig.flush_threshold"]}
{"id": "C04", "title": "The in-memory log buffer is bounded by the flush threshold", "statement": "In synchronous mode with a positive flush threshold, after every saved batch the number of unflushed array elements held in memory is at most the threshold; with a threshold <= 0 nothing is written before finalize.", "quantifier": "every history of saved batches and finalizes, every threshold", "why_tests_cant": "The bound has to hold after every prefix of every history.", "anchors": ["logix/logging/log_saver.py:LogSaver.flush,buffer_write", "logix/logging/logger.py:HookLogger.save_log"]}
{"id": "C05", "title": "Chunk files are found again under exactly the names they were written with, in numeric order", "statement": "For every rank and flush number, the loader recovers from the chunk's file name the key that reproduces the data and metadata file names the saver used, different (rank, flush number) pairs use different names, and chunks are visited in increasing (rank, flush number) order compared as numbers, never as text.", "quantifier": "every rank and chunk number (arbitrarily many digits) and every directory listing order", "why_tests_cant": "The loader strips character sets, not prefixes; tests only see rank 0 chunk 0.", "anchors": ["logix/logging/log_loader_utils.py:find_chunk_indices,extract_rank_and_chunk", "logix/logging/log_saver.py:LogSaver.file_prefix"]}
{"id": "C06", "title": "Logs of different ranks never overwrite one another and are read back together", "statement": "When several ranks save into the same directory, each in any interleaving, the dataset read afterwards is the concatenation, in rank order, of what each rank alone would have produced.", "quantifier": "every number of ranks, every interleaving of their flushes, every history per rank, ids distinct overall", "why_tests_cant": "All interleavings of independent writers.", "anchors": ["logix/logging/log_saver.py:LogSaver.file_prefix", "logix/logging/log_loader.py:LogDataset.fetch_data"]}
{"id": "C07", "title": "What happens when the same data id is logged more than once", "statement": "If an id is logged again after its first log has been flushed, the dataset keeps the first flushed log; if it is logged again while still buffered, the later arrays replace the earlier ones; in both cases the id appears exactly once in the dataset.", "quantifier": "every history of saved batches with repeated ids, every threshold", "why_tests_cant": "Depends on where the flush boundary falls relative to the two occurrences.", "anchors": ["logix/logging/log_loader_utils.py:get_mmap_metadata", "logix/logging/log_saver.py:LogSaver.buffer_write"]}
{"id": "C08", "title": "No saved sample is lost when background flushing is enabled", "statement": "With num_workers > 1 every sample that was logged and saved is in the dataset after finalize.", "quantifier": "every history of saved batches, every threshold, every num_workers > 1", "why_tests_cant": "The failure happens inside a worker thread whose exception is never looked at, so the program and its tests see nothing.", "anchors": ["logix/logging/log_saver.py:LogSaver._flush_safe,_flush_unsafe"]}
{"id": "C09", "title": "A crash during a flush never damages chunks that were already completed", "statement": "If the process stops at any point inside a flush, every data and metadata file of a previously completed chunk is byte for byte what it was.", "quantifier": "every crash point inside the write of a chunk, every earlier history of the same session", "why_tests_cant": "Crash points cannot be enumerated by running the code.", "anchors": ["logix/logging/mmap.py:MemoryMapHandler.write", "logix/logging/log_saver.py:LogSaver._flush_serialized"]}
{"id": "C10", "title": "After a crash during a flush the completed chunks are still readable", "statement": "If the process stops at any point inside a flush, LogDataset can still be built on the directory and returns all samples of the completed chunks.", "quantifier": "every crash point inside the write of a chunk, every earlier history of the same session", "why_tests_cant": "Crash points cannot be enumerated by running the code.", "anchors": ["logix/logging/mmap.py:MemoryMapHandler.write", "logix/logging/log_loader.py:LogDataset.fetch_data"]}
{"id": "C11", "title": "Chunk metadata tiles the data file", "statement": "In the metadata of every chunk the entries' byte ranges start at 0, are contiguous, do not overlap, and end inside the data file; they end exactly at its end when every logged array is in the write order.", "quantifier": "every chunk that a write produces (any entries, shapes and dtypes)", "why_tests_cant": "Every shape and dtype combination.", "anchors": ["logix/logging/mmap.py:MemoryMapHandler.write"]}
{"id": "C12", "title": "A sample whose log lacks a watched module is rejected, not silently misaligned", "statement": "If some buffered sample has no array for some path of the write order, flushing raises, no metadata file is written for that chunk, and the buffer keeps all its samples; flushing keeps failing until the buffer is cleared.", "quantifier": "every buffer content and write order with at least one incomplete sample", "why_tests_cant": "Needs all buffer contents; in particular one empty batch blocks every later flush.", "anchors": ["logix/logging/mmap.py:get_from_nested_dict,MemoryMapHandler.write", "logix/logging/log_saver.py:LogSaver._flush_serialized,buffer_write"]}
{"id": "C13", "title": "Rows are stored under the id of the same position", "statement": "Saving a batch stores, for the i-th data id, the i-th slice along the batch dimension of every logged tensor; if there are more ids than rows the save raises IndexError.", "quantifier": "every list of ids, every log, every batch size", "why_tests_cant": "Every combination of ids and tensors.", "anchors": ["logix/logging/log_saver.py:LogSaver.buffer_write"]}
{"id": "C14", "title": "Log batches served by the data loader keep order and alignment", "statement": "Iterating the log data loader with any batch size yields every dataset item exactly once, in dataset order; row j of every tensor of a batch is the array of the j-th id of that batch.", "quantifier": "every dataset of homogeneous items, every batch size", "why_tests_cant": "Every dataset length modulo batch size and every nesting.", "anchors": ["logix/logix.py:LogIX.build_log_dataloader", "logix/logging/log_loader_utils.py:collate_nested_dicts,_merge_dicts,_collate_tensors_in_structure"]}
{"id": "C15", "title": "Flattened and nested views of a stored sample agree", "statement": "With flatten=True the item is the concatenation, in write order, of the flattened arrays that the nested view returns for the same index.", "quantifier": "every stored chunk and index", "why_tests_cant": "Every shape and path combination.", "anchors": ["logix/logging/log_loader.py:LogDataset.__getitem__"]}
{"id": "C16", "title": "build_log_dataset reflects what is on disk when it is called", "statement": "Every call of build_log_dataset (and build_log_dataloader) returns a dataset for the current directory contents and the requested flatten flag.", "quantifier": "every history of saves, finalizes and dataset builds", "why_tests_cant": "Depends on the order of builds and finalizes over the whole history.", "anchors": ["logix/logix.py:LogIX.build_log_dataset,build_log_dataloader"]}
{"id": "C17", "title": "A batch's log contains nothing from earlier batches", "statement": "When a batch context (with run(...) or start/end) is entered and the model is run inside it, the log seen by get_log and by saving depends only on what was run since that context was set up, not on any earlier batch, including batches that ended with an exception.", "quantifier": "every earlier history of contexts, model runs, saves, finalizes and setups", "why_tests_cant": "Every history of earlier operations.", "anchors": ["logix/logix.py:LogIX.__call__,__enter__,start", "logix/batch_info.py:BatchInfo.clear"]}
{"id": "C18", "title": "Gradients of a module used several times are summed", "statement": "If a watched module is used k times inside one batch context, the logged per-sample gradient is the sum over the k uses, in any order of the backward events.", "quantifier": "every number and order of uses of every module", "why_tests_cant": "Every number and order of uses.", "anchors": ["logix/logging/logger.py:HookLogger._grad_hook_fn", "logix/statistic/log.py:Log.update"]}
{"id": "C19", "title": "Hooks do not pile up over repeated batches", "statement": "However many batch contexts were entered before, when a context is active each watched module carries exactly one set of LogIX hooks per watch call that selected it, so nothing is counted twice.", "quantifier": "every history of enters, exits, starts, ends, clears and watches", "why_tests_cant": "Every history.", "anchors": ["logix/logging/logger.py:HookLogger.clear,register_all_module_hooks,add_module", "logix/logix.py:LogIX.__enter__"]}
{"id": "C20", "title": "Nothing is logged outside a batch context", "statement": "After leaving a batch context no hook remains on the model, so running the model outside a context changes neither the current log nor any statistic.", "quantifier": "every history of contexts and model runs", "why_tests_cant": "Every interleaving of runs inside and outside contexts.", "anchors": ["logix/logix.py:LogIX.__exit__,end", "logix/logging/logger.py:HookLogger.update"]}
{"id": "C21", "title": "setup normalises plugin lists", "statement": "After setup, the plugins that run for forward, backward and grad are exactly the requested ones, each once, in the fixed order log, mean, variance, covariance, corrected_eigval, whatever the order, repetitions or mix of names and classes in the request; anything configured before is gone; an unknown plugin is rejected.", "quantifier": "every request dictionary and every earlier configuration", "why_tests_cant": "Every list of plugins.", "anchors": ["logix/logging/option.py:_to_plugins,_reorder_plugins,LogOption.setup"]}
{"id": "C22", "title": "Gradient plugins can be requested without naming log", "statement": "If a grad plugin list without log is set up, log is inserted at the front (as the warning text says) and the gradient hook works.", "quantifier": "every non-empty grad plugin request without log", "why_tests_cant": "Every plugin list.", "anchors": ["logix/logging/option.py:_to_plugins", "logix/logging/logger.py:HookLogger._grad_hook_fn"]}
{"id": "C23", "title": "A batch is saved exactly when saving was requested for it", "statement": "A batch is written to the save buffer exactly when it was opened with save=True (or ended with save=True) or saving is globally enabled at that moment; eval() disables global saving until save(True).", "quantifier": "every history of calls, enters, exits, starts, ends, save and eval", "why_tests_cant": "Every history; the per-batch flag is kept in a field between calls.", "anchors": ["logix/logix.py:LogIX.__call__,__exit__,end,save,eval"]}
{"id": "C24", "title": "get_log(copy=True) is a snapshot", "statement": "A log obtained with get_log(copy=True) is never changed by any later operation; one obtained with copy=False is the live log and is emptied when the next batch starts.", "quantifier": "every later history of operations", "why_tests_cant": "Every later history.", "anchors": ["logix/logix.py:LogIX.get_log", "logix/batch_info.py:BatchInfo.clear"]}
{"id": "C25", "title": "Logging does not change the tensors of the user's model", "statement": "Running the watched model inside a batch context leaves every activation and gradient tensor of the model as it would be without LogIX.", "quantifier": "every plugin configuration and every sequence of module uses", "why_tests_cant": "Every sequence of uses; the damage needs a module used twice with forward or backward logging.", "anchors": ["logix/statistic/log.py:Log.update", "logix/logging/logger.py:HookLogger._forward_hook_fn,_backward_hook_fn"]}
{"id": "C26", "title": "A batch whose body raised is not saved", "statement": "If the body of a batch context raises, nothing of that batch reaches the save buffer or the statistics kept for gradients.", "quantifier": "every body that raises at any point", "why_tests_cant": "Every point at which the body can raise.", "anchors": ["logix/logix.py:LogIX.__exit__"]}
{"id": "C27", "title": "Per-sample gradients of linear layers are the true gradients", "statement": "For a linear layer the logged per-sample gradient of sample n is the gradient, with respect to the weight, of sample n's part of the loss: its inner product with any weight perturbation H equals the sum over positions of the output gradient times H applied to the input. The sum over samples is the batch gradient.", "quantifier": "every batch size, every number of extra (sequence) dimensions, every input, output gradient and weight perturbation", "why_tests_cant": "Every shape and value.", "anchors": ["logix/logging/utils.py:compute_per_sample_gradient"]}
{"id": "C28", "title": "Per-sample gradients of 2-d convolutions are the true gradients", "statement": "For a Conv2d with any kernel size, stride, zero padding and dilation (groups=1), the logged per-sample gradient is the adjoint of the convolution in its weight: its inner product with any weight perturbation H equals the inner product of the output gradient with the convolution of the input by H.", "quantifier": "every image size, kernel, stride, padding, dilation, input and output gradient", "why_tests_cant": "Every geometry.", "anchors": ["logix/logging/utils.py:compute_per_sample_gradient"]}
{"id": "C29", "title": "Convolution covariances use the same coordinates as convolution gradients", "statement": "The rows that enter a Conv2d layer's forward covariance are exactly the input patches, in the same coordinate order, that multiply the output gradient in the logged per-sample gradient.", "quantifier": "every image size, kernel, stride, padding and dilation", "why_tests_cant": "Every geometry; two different unfold implementations have to agree.", "anchors": ["logix/statistic/utils.py:extract_patches,make_forward_2d,make_backward_2d", "logix/logging/utils.py:compute_per_sample_gradient"]}
{"id": "C30", "title": "The mean statistic is the exact average", "statement": "After finalize the mean of a logged quantity is the sum of all its rows divided by the number of samples logged, however the samples were split into batches and in whatever order the batches came.", "quantifier": "every list of batches of every size, any order and any split", "why_tests_cant": "Every history of batches.", "anchors": ["logix/statistic/mean.py:Mean.update", "logix/state.py:LogIXState.normalize"]}
{"id": "C31", "title": "The covariance statistic is the exact average outer product", "statement": "After finalize the covariance of a logged quantity is the sum of the outer products of all its rows with themselves divided by the number of samples logged, however the samples were split into batches and in whatever order the batches came.", "quantifier": "every list of batches of every size, any order and any split", "why_tests_cant": "Every history of batches.", "anchors": ["logix/statistic/covariance.py:Covariance.update", "logix/state.py:LogIXState.normalize"]}
{"id": "C32", "title": "Masked positions are ignored in forward statistics", "statement": "With a 0/1 mask of shape [batch, seq] on activations [batch, seq, dim], the forward covariance (and mean) after finalize is the average over the unmasked positions only.", "quantifier": "every batch, mask and activation, every history", "why_tests_cant": "Every mask and history.", "anchors": ["logix/logging/logger.py:HookLogger._forward_hook_fn", "logix/statistic/covariance.py:Covariance.update", "logix/statistic/mean.py:Mean.update"]}
{"id": "C33", "title": "Covariances are symmetric positive semidefinite at all times", "statement": "At every moment every covariance matrix is symmetric and positive semidefinite.", "quantifier": "every history of logged batches, before and after finalize", "why_tests_cant": "Every history.", "anchors": ["logix/statistic/covariance.py:Covariance.update", "logix/state.py:LogIXState.normalize"]}
{"id": "C34", "title": "Distributed statistics equal single-process statistics", "statement": "When the data is split over W > 1 processes that register the same statistics in the same order, finalize leaves on every process the statistic that a single process would have computed on all the data.", "quantifier": "every number of processes, every split of the data, every history per process", "why_tests_cant": "Every split and number of processes.", "anchors": ["logix/state.py:LogIXState.synchronize,finalize,normalize"]}
{"id": "C35", "title": "finalize can be called again", "statement": "Calling finalize a second time with no logging in between leaves mean and covariance unchanged; calling it after further logging gives the statistic of all the data logged so far.", "quantifier": "every history with more than one finalize", "why_tests_cant": "Every history.", "anchors": ["logix/state.py:LogIXState.normalize,finalize", "logix/huggingface/callback.py:LogIXCallback.on_epoch_end"]}
{"id": "C36", "title": "EKFAC corrected eigenvalues are averages of squared rotated gradients", "statement": "After finalize the corrected eigenvalue at (a, b) is the average over all logged samples of the square of entry (a, b) of the gradient rotated by the backward and forward eigenvectors; it is never negative and does not depend on batching.", "quantifier": "every history of gradient batches and every eigenbasis", "why_tests_cant": "Every history.", "anchors": ["logix/statistic/corrected_eigval.py:CorrectedEigval.update"]}
{"id": "C37", "title": "Every plugin that setup accepts can run", "statement": "Each of the plugins accepted by setup (log, mean, variance, covariance, corrected_eigval) can process a batch without raising.", "quantifier": "every plugin and every batch", "why_tests_cant": "The plugin registry and the state registry are separate tables that have to agree for all entries.", "anchors": ["logix/statistic/variance.py:Variance.update", "logix/state.py:LogIXState.__init__", "logix/logging/option.py:_PLUGIN_MAPPING"]}
{"id": "C38", "title": "clear() makes later statistics independent of earlier logging", "statement": "After clear(), the statistics and logs computed from later batches are the same as those of a fresh instance given only the later batches; the tracked-module table survives.", "quantifier": "every history before clear and every history after it", "why_tests_cant": "Every pair of histories.", "anchors": ["logix/logix.py:LogIX.clear", "logix/state.py:LogIXState.clear", "logix/logging/logger.py:HookLogger.clear"]}
{"id": "C39", "title": "cpu_offload does not change results", "statement": "The statistics are the same with cpu_offload on and off.", "quantifier": "every history of batches", "why_tests_cant": "Every history.", "anchors": ["logix/statistic/covariance.py:Covariance.update", "logix/statistic/mean.py:Mean.update", "logix/statistic/corrected_eigval.py:CorrectedEigval.update"]}
{"id": "C40", "title": "Saved statistics are restored exactly", "statement": "Loading the state saved by finalize restores, for every state registered for saving, exactly the value that was saved, whatever the loading instance held before.", "quantifier": "every state content, every set of registered states, every previous content of the loading instance", "why_tests_cant": "Every state content.", "anchors": ["logix/state.py:LogIXState.save_state,load_state", "logix/logix.py:LogIX.initialize_from_log"]}
{"id": "C41", "title": "Logging can be resumed from a restored state", "statement": "After initialize_from_log, further logging and finalize give the statistic over old and new data.", "quantifier": "every saved history and every later history", "why_tests_cant": "Every pair of histories.", "anchors": ["logix/state.py:LogIXState.save_state,load_state,normalize", "logix/statistic/covariance.py:Covariance.update"]}
{"id": "C42", "title": "The Hessian used for preconditioning is the current one, with the requested damping", "statement": "Each influence computation uses the inverse (or eigendecomposition) of the covariance as it is at that moment and the damping passed to that call.", "quantifier": "every history of logging, finalize, clear and influence calls with any dampings", "why_tests_cant": "Every history of calls.", "anchors": ["logix/state.py:LogIXState.get_covariance_inverse_state,get_covariance_svd_state,clear"]}
{"id": "C43", "title": "KFAC preconditioning solves the damped Kronecker system", "statement": "Given eigendecompositions of the forward covariance A and backward covariance B, the preconditioned gradient P of gradient G satisfies B P A + damping * P = G for every sample and module.", "quantifier": "every covariance pair, damping that keeps all eigenvalue products nonzero, gradient, batch and set of modules", "why_tests_cant": "Every matrix and dimension.", "anchors": ["logix/analysis/influence_function_utils.py:precondition_kfac", "logix/state.py:LogIXState.covariance_svd"]}
{"id": "C44", "title": "Raw preconditioning solves the damped covariance system", "statement": "With hessian='raw' the preconditioned flattened gradient p satisfies (C + damping * I) p = g for the gradient covariance C.", "quantifier": "every symmetric covariance with C + damping*I invertible, every gradient and batch", "why_tests_cant": "Every matrix and dimension.", "anchors": ["logix/analysis/influence_function_utils.py:precondition_raw", "logix/state.py:LogIXState.covariance_inverse"]}
{"id": "C45", "title": "Preconditioning is all or nothing", "statement": "If any module of the source log has no covariance, the gradients are returned unchanged for all modules; otherwise every module is preconditioned.", "quantifier": "every source log and covariance state", "why_tests_cant": "Every combination of modules.", "anchors": ["logix/analysis/influence_function.py:InfluenceFunction.precondition"]}
{"id": "C46", "title": "Influence is the inner product over all modules", "statement": "In dot mode without preconditioning, influence[i][j] is the inner product of the i-th source gradient and the j-th target gradient concatenated over all modules, and it is linear in each of them.", "quantifier": "every source and target log over the same modules", "why_tests_cant": "Every log.", "anchors": ["logix/analysis/influence_function.py:InfluenceFunction.compute_influence", "logix/analysis/influence_function_utils.py:cross_dot_product"]}
{"id": "C47", "title": "compute_influence_all does not depend on the loader's batch size", "statement": "Influence against a loader equals influence against all its samples at once: the score columns and target ids are those of the concatenated targets, for any batching of the loader.", "quantifier": "every loader with at least one batch, every batching, dot mode and (without in-place EKFAC eigenvalues) l2 and cosine modes", "why_tests_cant": "Every batching.", "anchors": ["logix/analysis/influence_function.py:InfluenceFunction.compute_influence_all", "logix/analysis/influence_function_utils.py:merge_influence_results"]}
{"id": "C48", "title": "Scores are labelled by the right ids", "statement": "In every result returned, the score matrix has one row per source id and one column per target id, and entry (i, j) is the score of those two samples; mismatched lengths raise instead of returning.", "quantifier": "every source log and target log", "why_tests_cant": "Every log and id list.", "anchors": ["logix/analysis/influence_function.py:InfluenceFunction.compute_influence"]}
{"id": "C49", "title": "Self-influence is the diagonal of influence and is not negative", "statement": "compute_self_influence of a log equals the diagonal of compute_influence of the log with itself under the same preconditioning, and with positive semidefinite covariances and positive damping it is >= 0.", "quantifier": "every log, covariance state and positive damping", "why_tests_cant": "Every log and matrix.", "anchors": ["logix/analysis/influence_function.py:InfluenceFunction.compute_self_influence,compute_influence"]}
{"id": "C50", "title": "Preconditioned influence is symmetric", "statement": "In dot mode with the same (symmetric) Hessian, the influence of x on y equals the influence of y on x.", "quantifier": "every pair of logs and every symmetric covariance state", "why_tests_cant": "Every log and matrix.", "anchors": ["logix/analysis/influence_function.py:InfluenceFunction.compute_influence"]}
{"id": "C51", "title": "l2 mode ranks by Hessian distance", "statement": "In l2 mode, influence(s, t) = (influence-norm of s)/2 - (squared Hessian distance of s and t)/2, so no target scores higher than a target identical to the source.", "quantifier": "every source, target and covariance state with positive damping", "why_tests_cant": "Every log and matrix.", "anchors": ["logix/analysis/influence_function.py:InfluenceFunction.compute_influence"]}
{"id": "C52", "title": "cosine mode ignores the scale of the target gradient", "statement": "In cosine mode scaling a target gradient by a positive number does not change its score, and the absolute score is at most the Hessian norm of the source.", "quantifier": "every source, target with positive self-influence, positive scale", "why_tests_cant": "Every log and matrix.", "anchors": ["logix/analysis/influence_function.py:InfluenceFunction.compute_influence"]}
{"id": "C53", "title": "Group influence sums exactly the modules of the group", "statement": "With influence_groups, the score of a group is the sum of the module scores over the modules whose name contains the group name, 'total' is the sum over all modules, and groups that split the modules add up to the total.", "quantifier": "every log, every list of group names, every module naming", "why_tests_cant": "Every naming and grouping.", "anchors": ["logix/analysis/influence_function.py:InfluenceFunction.compute_influence,compute_self_influence"]}
{"id": "C54", "title": "Influence computations are repeatable", "statement": "Repeating an influence computation with the same arguments gives the same scores; computing influence does not change the Hessian state used by later calls.", "quantifier": "every sequence of influence calls", "why_tests_cant": "Every sequence of calls; the state is shared and updated in place.", "anchors": ["logix/analysis/influence_function_utils.py:precondition_kfac"]}
{"id": "C55", "title": "Default damping is chosen per module", "statement": "When no damping is given, each module is damped by 0.1 times the mean of its own eigenvalues, so a module's scores do not depend on which other modules are present or on their order.", "quantifier": "every set and order of modules", "why_tests_cant": "Every set and order of modules.", "anchors": ["logix/analysis/influence_function_utils.py:precondition_kfac"]}
{"id": "C56", "title": "Saved influence scores collect all source batches", "statement": "After compute_influence_all(save=True) for a sequence of source batches against the same loader, get_influence_scores has the source ids of all batches in order, and the row of each source id is the row computed for it.", "quantifier": "every sequence of source batches", "why_tests_cant": "Every sequence.", "anchors": ["logix/analysis/influence_function.py:InfluenceFunction.compute_influence_all,get_influence_scores", "logix/analysis/influence_function_utils.py:merge_influence_results"]}
{"id": "C57", "title": "Returned influence results do not change later", "statement": "A result returned by compute_influence_all is not modified by later calls.", "quantifier": "every later sequence of calls", "why_tests_cant": "Every later sequence; the damage is through a shared list object.", "anchors": ["logix/analysis/influence_function_utils.py:merge_influence_results", "logix/analysis/influence_function.py:InfluenceFunction.compute_influence_all"]}
{"id": "C58", "title": "The scheduler runs the documented number of epochs and then stops", "statement": "Iterating a LogIXScheduler yields 0, 1, ..., len-1 and then stops for good, with len = 1 + (1 if lora is pca) + (1 if hessian is ekfac).", "quantifier": "every valid combination of lora, hessian and save, any number of next calls", "why_tests_cant": "Every configuration and number of calls.", "anchors": ["logix/scheduler.py:LogIXScheduler.__next__,configure_schedule,__len__"]}
{"id": "C59", "title": "The scheduler adds LoRA exactly once and at the right time", "statement": "Over a complete iteration add_lora is called never for lora='none', exactly once before the first epoch for 'random', and exactly once after exactly one covariance epoch for 'pca'.", "quantifier": "every configuration", "why_tests_cant": "Every configuration and call sequence.", "anchors": ["logix/scheduler.py:LogIXScheduler.get_lora_epoch,__next__"]}
{"id": "C60", "title": "The scheduler turns on saving only for the last epoch, which collects what was asked for", "statement": "Saving is enabled by the scheduler exactly at the last epoch if save is not 'none', never otherwise. The last epoch logs the kind of data named by save (and gradients if hessian is 'raw' or 'ekfac'), collects the statistics of hessian, and nothing else.", "quantifier": "every configuration", "why_tests_cant": "Every configuration and call sequence.", "anchors": ["logix/scheduler.py:LogIXScheduler.get_save_epoch,__next__", "logix/scheduler.py:LogIXScheduler.configure_schedule"]}
{"id": "C61", "title": "Scheduled plugin lists are valid for the hooks", "statement": "In every epoch of every schedule, if any gradient plugin is active then log is active and first, so the gradient hook's check never fails; corrected eigenvalues are only collected after an epoch that collected forward and backward covariances.", "quantifier": "every configuration and epoch", "why_tests_cant": "Every configuration.", "anchors": ["logix/scheduler.py:LogIXScheduler.configure_schedule", "logix/logging/option.py:LogOption.setup", "logix/logging/logger.py:HookLogger._grad_hook_fn"]}
{"id": "C62", "title": "The Lightning integration runs exactly the scheduled epochs", "statement": "extract_log with the patched Lightning trainer starts each scheduled epoch once, finalizes after each, and stops after the last one without exhausting the scheduler; influence mode runs one epoch.", "quantifier": "every scheduler configuration and any trainer epoch limit", "why_tests_cant": "Every configuration.", "anchors": ["logix/lightning/callback.py:LogIXCallback.on_train_epoch_start,on_train_epoch_end"]}
{"id": "C63", "title": "Adding LoRA does not change the model's outputs", "statement": "Right after add_lora the model computes, for every input, exactly what it computed before (the bottleneck is zero), for random and PCA initialisation, with or without sharing.", "quantifier": "every input, every weight, every rank, every encoder and decoder weight", "why_tests_cant": "Every input and weight.", "anchors": ["logix/lora/modules.py:LoraLinear.forward,LoraConv2d.forward"]}
{"id": "C64", "title": "The LoRA gradient is the projected full gradient", "statement": "The per-sample gradient logged for the LoRA bottleneck equals decoder-transpose times the full per-sample weight gradient times encoder-transpose.", "quantifier": "every input, output gradient, encoder, decoder and sequence length", "why_tests_cant": "Every shape and value.", "anchors": ["logix/lora/modules.py:LoraLinear", "logix/logging/utils.py:compute_per_sample_gradient"]}
{"id": "C65", "title": "add_lora wraps exactly the selected layers", "statement": "add_lora replaces exactly the leaf modules that are of a supported type and pass the type and name filters, leaves every other module in place, and the wrapped model exposes the same layers under the wrapper.", "quantifier": "every model tree, every filter", "why_tests_cant": "Every model tree.", "anchors": ["logix/lora/lora.py:LoRAHandler.add_lora", "logix/lora/utils.py:_get_submodules", "logix/utils.py:module_check"]}
{"id": "C66", "title": "Parameter sharing assigns one bottleneck per group", "statement": "With parameter sharing, two wrapped modules share their bottleneck exactly when they belong to the same sharing group; a module matching no group or more than one is rejected.", "quantifier": "every model, every list of groups", "why_tests_cant": "Every naming.", "anchors": ["logix/lora/lora.py:LoRAHandler.add_lora", "logix/lora/utils.py:find_parameter_sharing_group"]}
{"id": "C67", "title": "watch selects exactly the modules the filters describe", "statement": "watch tracks exactly the leaf modules of supported type that pass the type filter and whose name contains one of the name-filter keywords; if the model contains LoRA bottlenecks only those are tracked. The write order used for saving lists exactly the tracked modules.", "quantifier": "every model tree, every filter", "why_tests_cant": "Every model tree.", "anchors": ["logix/logix.py:LogIX.watch", "logix/utils.py:module_check,get_repr_dim", "logix/lora/utils.py:is_lora"]}
{"id": "C68", "title": "watch enables gradients for what it tracks and disables them for the rest", "statement": "After watch, parameters of tracked modules require gradients (if they did before) and parameters of untracked leaf modules do not.", "quantifier": "every model tree and every sequence of watch calls", "why_tests_cant": "Every sequence of watch calls.", "anchors": ["logix/logix.py:LogIX.watch"]}
{"id": "C69", "title": "Saved configuration is restored exactly", "statement": "Loading the configuration file written by finalize restores every configuration value, whatever the loading instance held before.", "quantifier": "every configuration content", "why_tests_cant": "Every content.", "anchors": ["logix/config.py:Config.save_config,load_config,load_config_from_dict"]}
{"id": "C70", "title": "All components use the same log directory", "statement": "After construction, after loading a configuration, and after set_logging_config, the logging component's log_dir is root_dir/project of the current configuration; the project argument wins over the configuration file.", "quantifier": "every configuration file, project name and sequence of configuration operations", "why_tests_cant": "Every content.", "anchors": ["logix/config.py:Config.configure_log_dir,init_config_from_yaml", "logix/logix.py:LogIX.set_logging_config"]}
{"id": "C71", "title": "A saved configuration can be used to start a new run", "statement": "The config.yaml written by finalize can be passed as config to a new LogIX instance.", "quantifier": "every configuration content", "why_tests_cant": "Every content.", "anchors": ["logix/config.py:init_config_from_yaml,Config"]}
{"id": "C72", "title": "Index data ids are unique", "statement": "A DataIDGenerator in index mode never returns the same id twice, over any sequence of calls with batches of any sizes, and numbers samples consecutively.", "quantifier": "every sequence of batch sizes", "why_tests_cant": "Every sequence.", "anchors": ["logix/utils.py:DataIDGenerator.generate_index_id"]}
{"id": "C73", "title": "Hash data ids depend only on sample content", "statement": "In hash mode the id of a sample is a function of its bytes alone, so the same sample gets the same id in any batch position, call or epoch, and (for a collision-free hash) samples with different bytes get different ids.", "quantifier": "every batch and every sequence of calls", "why_tests_cant": "Every batch.", "anchors": ["logix/utils.py:DataIDGenerator.generate_hash_id"]}
{"id": "C74", "title": "Merging accumulated logs concatenates them", "statement": "merge_logs returns the ids of all logs in order and, per module and log type, the rows of all logs in order, so row i still belongs to id i when all logs have the same modules.", "quantifier": "every list of logs", "why_tests_cant": "Every list of logs.", "anchors": ["logix/utils.py:merge_logs,merge_log_dict", "logix/huggingface/callback.py:LogIXCallback.on_step_end"]}
{"id": "C75", "title": "Influence from stored logs equals influence from in-memory gradients", "statement": "Logging and saving gradients, finalizing, building the loader and computing influence gives the same scores as computing influence directly against the gradients in memory, for any flush threshold, loader batch size, and flattened or nested loading.", "quantifier": "every history of saved batches, threshold, batch size and source log", "why_tests_cant": "Composition of every storage and batching choice.", "anchors": ["logix/logix.py:LogIX.compute_influence_all,build_log_dataloader", "logix/logging/log_loader.py:LogDataset", "logix/utils.py:flatten_log"]}
{"id": "C76", "title": "The module-level API uses one run", "statement": "logix.init creates at most one run; before it every module-level call raises RuntimeError, after it every module-level call acts on that run; a second init neither replaces nor returns a run.", "quantifier": "every sequence of module-level calls", "why_tests_cant": "Every sequence.", "anchors": ["logix/__init__.py:init"]}
{"id": "C77", "title": "A new session starts from a clean directory", "statement": "Logging a new session into an existing project directory and finalizing gives a dataset with exactly the new session's samples.", "quantifier": "every earlier session and every new session", "why_tests_cant": "Every pair of sessions; the number of chunks differs between sessions.", "anchors": ["logix/logging/log_saver.py:LogSaver.__init__", "logix/logging/log_loader_utils.py:find_chunk_indices"]}
{"id": "C78", "title": "Samples with arrays of different dtypes are stored and read back correctly", "statement": "If the watched arrays of one logged sample have different dtypes (for example one module in float16 and another in float32), reading the sample back from the log directory gives every array with its own dtype and content.", "quantifier": "every write order, every buffer of samples with more than one dtype", "why_tests_cant": "Any mix of dtypes, shapes and positions in the chunk; the byte content decides whether a wrong dtype is noticed.", "anchors": ["logix/logging/mmap.py:MemoryMapHandler.write", "logix/logging/log_loader.py:LogDataset.__getitem__"]}
{"id": "C79", "title": "Every module-level function works after init", "statement": "After logix.init, every function the package exports at module level reaches the method of the same name on the run.", "quantifier": "every module-level function, run and arguments", "why_tests_cant": "Every function, every state of the run.", "anchors": ["logix/__init__.py:add_analysis", "logix/logix.py:LogIX"]}
{"id": "C80", "title": "A logging configuration installed on a live run governs further logging", "statement": "After set_logging_config or initialize_from_log on an existing run, logs are written with the flush threshold, offloading and dtype of the new logging configuration.", "quantifier": "every run and every sequence of configuration operations", "why_tests_cant": "Every sequence of configuration operations.", "anchors": ["logix/logix.py:LogIX.set_logging_config,initialize_from_log", "logix/logging/logger.py:HookLogger.__init__", "logix/logging/log_saver.py:LogSaver.__init__"]}
{"id": "C81", "title": "A run's log directory is the configured one", "statement": "At any time the directory a run reads and writes is the log_dir of its configuration, also after initialize_from_log on a directory that was moved.", "quantifier": "every sequence of configuration operations and every saved configuration", "why_tests_cant": "Every saved configuration.", "anchors": ["logix/logix.py:LogIX.__init__,initialize_from_log", "logix/config.py:Config.load_config"]}
{"id": "C82", "title": "A mask that does not match a layer has no effect on its statistics", "statement": "When the mask passed with a batch cannot be matched with the activations of a layer (for example a token mask [batch, seq] with pooled activations [batch, dim], dim != seq), the forward statistics of that layer after finalize are those of the same run without a mask.", "quantifier": "every layer, mask and history", "why_tests_cant": "Every combination of mask and activation shapes and every history.", "anchors": ["logix/logging/logger.py:HookLogger._forward_hook_fn", "logix/statistic/covariance.py:Covariance.update", "logix/statistic/mean.py:Mean.update"]}
{"id": "C83", "title": "A restored instance can be cleared and reused", "statement": "After initialize_from_log followed by clear(), logging new data and calling finalize gives the statistics of the new data alone, as in a new instance.", "quantifier": "every saved state, every previous content of the loading instance, every later history", "why_tests_cant": "Every pair of saved state and later history.", "anchors": ["logix/state.py:LogIXState.load_state,clear,normalize", "logix/logix.py:LogIX.initialize_from_log,clear"]}
{"id": "C84", "title": "Distributed statistics do not depend on the order in which a process meets its modules", "statement": "When W > 1 processes log the same quantities, finalize leaves on every process the statistic that a single process would have computed on all the data, even if the processes logged the modules in different orders (for example because control flow depends on the batch).", "quantifier": "every number of processes, every split of the data, every order of logging per process", "why_tests_cant": "A distributed test needs several processes and data dependent module order; when the shapes agree nothing fails, the values are silently mixed.", "anchors": ["logix/state.py:LogIXState.synchronize"]}
{"id": "C85", "title": "l2 and cosine scores work on the device where the gradients are", "statement": "If compute_influence returns for a source and a target log in dot mode, it also returns for them in l2 and cosine mode, on whatever device the gradients are.", "quantifier": "every pair of logs over the same modules, every device", "why_tests_cant": "Tests run on the CPU; the claim is about every placement of tensors.", "anchors": ["logix/analysis/influence_function.py:InfluenceFunction.compute_influence", "logix/analysis/influence_function.py:InfluenceFunction.compute_self_influence"]}
{"id": "C86", "title": "A saved batch is stored as it was when it ended", "statement": "If a batch is to be saved, then what is later read from the log directory for its samples is, for every watched module, the per-sample gradient that was in the log when the batch's context was left (or end() was called), whatever the program does afterwards: other batches, evaluation without saving, running the model outside any batch, copies of the log, and however long the save buffer waits before it is flushed.", "quantifier": "every session: every sequence of batches in either programming interface, module calls, gradients and exceptions in between, flush threshold, and order of directory listing", "why_tests_cant": "The save buffer holds views of live tensors until some later flush; whether anything changes them in between depends on the whole sequence of operations and the flush threshold, not on one call.", "anchors": ["logix/logix.py:LogIX.__exit__", "logix/logging/log_saver.py:LogSaver.buffer_write", "logix/logging/log_saver.py:LogSaver.flush", "logix/statistic/log.py:Log.update", "logix/logging/logger.py:HookLogger._grad_backward_hook_fn"]}
{"id": "C87", "title": "PCA-initialised LoRA keeps the directions of largest variance", "statement": "After statistics have been collected, add_lora with init \"pca\" gives every wrapped linear layer or convolution an encoder whose rows are orthonormal eigenvectors of the covariance of the layer's inputs, in descending order of their eigenvalues, and a decoder whose columns are the same for the covariance of the gradients of its outputs. Their number is the rank, but at most the numbers of inputs and outputs. Among all sets of that many orthonormal directions they keep most of the logged data: the sum of the squared norms of what the logged inputs (output gradients) are compressed to is largest. If no covariance has been collected, the weights are random.", "quantifier": "every model, rank, filter and sharing setting, every history of the statistics (any batches, plugins, finalize, clear, influence computations), every singular value decomposition that is one", "why_tests_cant": "Optimality is a claim over all sets of orthonormal directions and all logged data; a test compares with one decomposition of one matrix, and a shared bottleneck, a later wrapper or a wrong reshape of a convolution's kernel can spoil weights only in particular models.", "anchors": ["logix/lora/lora.py:LoRAHandler.add_lora", "logix/lora/modules.py:LoraLinear.pca_init_weight", "logix/lora/modules.py:LoraConv2d.pca_init_weight", "logix/lora/utils.py:compute_top_k_singular_vectors"]}
{"id": "C88", "title": "PCA-LoRA loses nothing when the logged data has low rank", "statement": "Let add_lora with init \"pca\" wrap a linear layer or an undilated convolution after statistics were logged. If the inputs logged for the layer lie in one subspace whose dimension is at most the wrapper's rank, and so do the output gradients, then the inner product of the per-sample gradient of a logged sample with that of any other sample is the same for the compressed gradients (those of the bottleneck) as for the gradients of the whole layer; hence dot influence scores of any samples against the logged ones are the same with LoRA as without. For data of any rank the compressed gradient of a sample is never larger than its gradient.", "quantifier": "every model, rank, sharing setting, history of logged batches, query sample, sequence length or image size, every singular value decomposition that is one", "why_tests_cant": "The claim is about all data of low rank and all query samples; a test compares numbers for one matrix, where a transposed factor or singular vectors of the wrong side can agree by symmetry.", "anchors": ["logix/lora/modules.py:LoraLinear.pca_init_weight", "logix/lora/modules.py:LoraConv2d.pca_init_weight", "logix/lora/modules.py:LoraLinear.forward", "logix/lora/lora.py:LoRAHandler.add_lora", "logix/logging/utils.py:compute_per_sample_gradient", "logix/analysis/influence_function.py:InfluenceFunction.compute_influence"]}
{"id": "C89", "title": "Saved influence scores do not depend on how sources and targets are batched", "statement": "A user scores test batches one after the other with compute_influence_all(..., save=True) against a log loader that serves the training samples in batches. The scores that get_influence_scores returns afterwards (ids, total and every group) are those of one compute_influence call with all test samples and all training samples: neither the test batch size nor the loader's batch size matters, also when other influence computations with the same damping went before.", "quantifier": "every split of sources and targets into one or more batches, every log, mode, Hessian, damping, groups and every reachable state", "why_tests_cant": "The inverses are cached in the state by the first computation and results are merged along two axes; only some combinations of batchings, modes and groups could misplace a row, and there are unboundedly many of them.", "anchors": ["logix/analysis/influence_function.py:InfluenceFunction.compute_influence_all", "logix/analysis/influence_function.py:InfluenceFunction.compute_influence", "logix/analysis/influence_function_utils.py:merge_influence_results", "logix/logix.py:LogIX.compute_influence_all"]}
{"id": "C90", "title": "Gradient accumulation does not change Hugging Face influence scores", "statement": "In trainer.influence(), micro-batches that are followed by no optimizer step are accumulated and scored together with the next step. After a run in which any of the micro-batches were followed by a step, the saved scores are those of one compute_influence call on all samples up to the last step (including micro-batches that an earlier call had left over) against all samples of the log loader, with the ids in order. The micro-batches after the last step are not scored; they are kept for the next call.", "quantifier": "every sequence of micro-batches and steps, every log, mode, damping, groups, loader batching and reachable state", "why_tests_cant": "The way batches are grouped is set by the number of accumulation steps, the size of the data and the last incomplete window; merged logs, cached inverses and merged scores interact, and a misplaced row shows only for some groupings.", "anchors": ["logix/huggingface/callback.py:LogIXCallback.on_step_end,on_substep_end", "logix/utils.py:merge_logs", "logix/analysis/influence_function.py:InfluenceFunction.compute_influence_all"]}
{"id": "C91", "title": "The Hugging Face integration runs each pass exactly once", "statement": "trainer.extract_log() runs the scheduled epochs, each begun by one step of the scheduler and ended by finalize, every time it is called; trainer.influence() and self_influence() make exactly one pass over the data, with gradient logging set up and saving off, so that influence() returns every sample once.", "quantifier": "every Hessian and save setting, every data set, every sequence of calls on one trainer", "why_tests_cant": "Whether a pass is repeated depends on the length of the schedule and on what was called before; a test with the default Hessian sees one pass.", "anchors": ["logix/huggingface/patch.py:PatchedTrainer.extract_log,influence,self_influence", "logix/huggingface/callback.py:LogIXCallback.on_epoch_begin,on_epoch_end,on_train_begin"]}
{"id": "C92", "title": "Hugging Face gradients are those of the summed token losses", "statement": "With the patched Hugging Face trainer the gradient that is logged for a sample is the gradient of the sum of the losses of its tokens: it does not depend on the other samples of its batch or on the number of accumulation steps.", "quantifier": "every batch, every labels with ignored positions, models with and without shifted labels, any number of accumulation steps", "why_tests_cant": "A batch of equal sequences or of a classification task gives the right factor; the factor is wrong only for combinations of label shift, sequence lengths and accumulation.", "anchors": ["logix/huggingface/patch.py:PatchedTrainer.training_step,get_sum_scale"]}
{"id": "C93", "title": "The scores are determined by the logged data", "statement": "Two new instances that log the same data for the covariances (in any order, cut into batches in any way, besides any other mean or covariance statistics) and finalize give the same influence and self-influence scores for the same sources and targets with a positive damping, whichever eigenvectors and inverses torch.linalg returns in each of them.", "quantifier": "every pair of histories that log the same rows, KFAC and raw Hessians and auto, every mode, groups, with and without preconditioning, every positive damping, every correct eigh and inverse; EKFAC is not meant", "why_tests_cant": "Eigenvectors are not unique: for repeated eigenvalues eigh may return any basis, so a test that passes with one LAPACK says nothing about another; and it would have to compare all batchings of all histories.", "anchors": ["logix/analysis/influence_function.py:InfluenceFunction.compute_influence,compute_self_influence", "logix/analysis/influence_function_utils.py:precondition_kfac,precondition_raw", "logix/state.py:LogIXState.get_covariance_svd_state,get_covariance_inverse_state", "logix/statistic/covariance.py:Covariance.update"]}
{"id": "C94", "title": "The scores are the influence function of the logged data", "statement": "After logging data for the covariances and finalizing, compute_influence (mode dot, positive damping c) returns for every source and target the sum over the modules of the inner product of the target gradient with the solution x of the damped system of the source gradient g: S_B x S_A + c x = g with KFAC, S x + c x = g with the covariance of the gradients, where S_A, S_B and S are the second moments of the logged activations, output gradients and gradients. The systems always have a solution, and the score does not depend on which one is taken. compute_self_influence returns the same number for a sample with itself.", "quantifier": "every history of mean and covariance statistics, every log of sources and targets, KFAC, raw and auto, every positive damping, every correct eigh and inverse; EKFAC is not meant", "why_tests_cant": "The formula involves the inverse of a matrix of the data; a test compares floating point numbers on a few inputs, and cannot show that the cached eigendecomposition, the rotation, the division and the summation over modules solve the system for all data.", "anchors": ["logix/analysis/influence_function.py:InfluenceFunction.compute_influence,compute_self_influence", "logix/analysis/influence_function_utils.py:precondition_kfac,precondition_raw", "logix/state.py:LogIXState.get_covariance_svd_state,get_covariance_inverse_state", "logix/statistic/covariance.py:Covariance.update"]}
{"id": "C95", "title": "A new session computes the same influence from the saved statistics", "statement": "A new instance that loads the statistics which finalize has saved gives, for every sequence of influence and self-influence computations, exactly the answers (or the error) that the instance that finalized gives, including fitted eigenvalues and eigendecompositions and inverses that were computed before saving.", "quantifier": "every history before saving, every content of the directory before, every sequence of calls with any arguments", "why_tests_cant": "Which states are registered for saving depends on the whole history (caches are registered on first use), and load_state does not restore the registry; a test compares a few calls after one history.", "anchors": ["logix/state.py:LogIXState.save_state,load_state,get_covariance_svd_state,get_covariance_inverse_state", "logix/logix.py:LogIX.finalize,initialize_from_log", "logix/analysis/influence_function.py:InfluenceFunction.compute_influence,compute_self_influence"]}
{"id": "C96", "title": "Loading statistics replaces the ones in use", "statement": "After load_state, influence computations use the loaded statistics, whatever the loading instance did before: they give the answers that the instance which saved the statistics gives.", "quantifier": "every history of the saving instance, every history of the loading instance, every sequence of calls", "why_tests_cant": "Whether it holds depends on what both instances have cached before; tests load into a new instance.", "anchors": ["logix/state.py:LogIXState.save_state,load_state,get_covariance_svd_state,get_covariance_inverse_state", "logix/logix.py:LogIX.finalize,initialize_from_log", "logix/analysis/influence_function.py:InfluenceFunction.compute_influence,compute_self_influence"]}
{"id": "C97", "title": "Lightning influence returns the scores of the data passed to it", "statement": "Every call of trainer.influence(...) of the Lightning integration makes one pass over the data and returns the influence of its samples, each once and in order, on all samples of the log: the scores of one compute_influence call, whatever the batch sizes.", "quantifier": "every data set and batching, every epoch limits of the trainer that allow a pass, every mode and damping, any number of calls on one trainer", "why_tests_cant": "A test calls it once; whether rows are repeated, missing or left over from earlier calls depends on the trainer's epoch counter, its limits and the scores saved before.", "anchors": ["logix/lightning/patch.py:PatchedTrainer.influence", "logix/lightning/callback.py:LogIXCallback.on_train_batch_end,on_train_epoch_end", "logix/analysis/influence_function.py:InfluenceFunction.compute_influence_all,get_influence_scores"]}
{"id": "C98", "title": "A distributed run leaves every process in the state of a single process", "statement": "When W processes log batches of the same quantities with mean and covariance statistics, meeting the quantities in the same order, each on its own devices, then finalize succeeds on all of them and leaves on each process exactly the state (tables, counters, what is registered for saving, synchronizing and normalizing) that a single process has after logging all the batches on that process's devices and finalizing (a counter is a zero-dimensional tensor with the value of the number), and rank 0 writes the files that the single process writes. So influence scores do not depend on the number of processes nor on how the data was split among them, and are on every process the influence function of all the data.", "quantifier": "every W >= 0, every history per process, every split, all devices, with and without offloading, every influence or self-influence request with a positive damping, every correct eigh and inverse; EKFAC is not meant", "why_tests_cant": "Every number of processes, every split and every history; a test compares a few numbers of one run, not the whole state.", "anchors": ["logix/state.py:LogIXState.synchronize,finalize,normalize,save_state", "logix/logix.py:LogIX.finalize", "logix/analysis/influence_function.py:InfluenceFunction.compute_influence,compute_self_influence"]}
{"id": "C99", "title": "EKFAC scores are those of the fitted eigenvalues", "statement": "A user logs activations and output gradients for the covariances, finalizes, logs gradients with the corrected_eigval statistic, and finalizes again. Then the first compute_influence (mode dot, preconditioned, KFAC, damping c > 0) gives for source i and target j the sum, over the modules and the entries (a, b) of a weight gradient, of the product of entry (a, b) of the two gradients in the Kronecker eigenbasis, divided by lambda_ab + c. The eigenbasis consists of orthonormal eigenvectors of the second moments of the output gradients and activations logged in the first phase, and lambda_ab >= 0 is the average of the squared entry (a, b) over the gradients logged in the second phase. When no eigenvalue of the second moments occurs twice, the score does not depend on which eigenvectors are chosen. The same holds for the total self-influence.", "quantifier": "every data logged in either phase, every batching, all modules, all sources and targets, every positive damping, every correct eigh", "why_tests_cant": "The formula must hold for all data; the second finalize divides the covariances once more, and only an argument over the whole history shows that the scores are not affected.", "anchors": ["logix/statistic/corrected_eigval.py:CorrectedEigval.update", "logix/state.py:LogIXState.covariance_svd,get_covariance_svd_state,finalize,normalize", "logix/analysis/influence_function_utils.py:precondition_kfac", "logix/analysis/influence_function.py:InfluenceFunction.compute_influence,compute_self_influence"]}
{"id": "C100", "title": "initialize_from_log restores the LoRA projection", "statement": "A session adds LoRA layers to a model (add_lora writes their weights to the log directory) and finalizes. In a new session with the same model, log directory and filters, watch followed by initialize_from_log gives every LoRA parameter the value it had in the first session, whatever the random initialisation of the new session, and leaves the saved weights on disk. The same holds for add_lora with lora_path.", "quantifier": "every model made of modules with named parameters, every selection of layers, rank, sharing and initialisation, every log directory and lora_path, models with and without LoRA layers", "why_tests_cant": "A test with a fixed random seed gets the same weights whether they are restored or drawn anew; that the saved file is overwritten before it is read shows only over all file contents.", "anchors": ["logix/logix.py:LogIX.add_lora,save_lora,initialize_from_log,watch,clear,finalize", "logix/lora/lora.py:LoRAHandler.add_lora", "logix/lora/modules.py:LoraLinear,LoraConv2d"]}
{"id": "C101", "title": "add_lora goes by the lora_config it is given", "statement": "After a successful add_lora(lora_config=c), every LoRA layer that the call made has encoders and decoders of rank c.rank (or of the layer's own size if that is smaller); with parameter_sharing exactly the layers of one group of c.parameter_sharing_groups have the same bottleneck, without it no two layers have. Without lora_config the same holds for the configuration of the run.", "quantifier": "every model, selection of layers, configuration, and state of the run (first and later calls of add_lora, with other models or filters in between)", "why_tests_cant": "Tests call add_lora once per run; the object that makes the layers is created by the first call and kept, so only a statement over all states of the run covers later calls.", "anchors": ["logix/logix.py:LogIX.add_lora,set_lora_config,get_lora_config", "logix/lora/lora.py:LoRAHandler.__init__,add_lora", "logix/lora/modules.py:LoraLinear,LoraConv2d"]}
{"id": "C102", "title": "Watching a module again does not change what is logged", "statement": "Let a run watch modules, in any history of calls. Calling watch once more with modules that are watched already, under the names they have, does not change the logs: a batch that is then run gives the same logged gradients as without that call.", "quantifier": "every history of watch, options, batches and model runs, every selection of modules watched already, every batch context and model run, any number of uses of a module", "why_tests_cant": "Each watch adds another hook to the same module; how often a gradient is added depends on the whole history of calls, on the order of hooks, and on how often the module is used in a batch.", "anchors": ["logix/logix.py:LogIX.watch,add_lora", "logix/logging/logger.py:HookLogger.register_all_module_hooks,_grad_hook_fn,_forward_hook_fn"]}
{"id": "C103", "title": "The integrations give every sample of a batch its own id", "statement": "With the Hugging Face trainer (data_id=\"hash\") and with the Lightning integration and its default ids, a batch of n samples (a tensor, a list or tuple of tensors, or a dictionary of tensors with n rows each) gets n ids, and id i is determined by sample i alone. So the log of every sample is stored, under an id of its own.", "quantifier": "every batch of every form a PyTorch data loader gives, every number of samples, every hash", "why_tests_cant": "With two tensors in a batch and two samples the number of ids happens to be right; the statement is about all batch sizes and forms.", "anchors": ["logix/lightning/callback.py:LogIXCallback.__init__,on_train_batch_start", "logix/huggingface/patch.py:PatchedTrainer.get_data_id", "logix/utils.py:DataIDGenerator.generate_hash_id,to_numpy", "logix/logging/log_saver.py:LogSaver.buffer_write,_add"]}
{"id": "C104", "title": "EKFAC scores in several processes are those of the pooled data", "statement": "If several processes collect covariances, finalize together, fit corrected eigenvalues (EKFAC) each on its own gradients and finalize together again, then the influence and self-influence scores computed on every process are those of the eigenvalues fitted on the gradients of all processes together, in eigenbases of the second moments of all the data. When no eigenvalue of a second moment is repeated the scores do not depend on how the data was divided among the processes.", "quantifier": "every number of processes above one, every split of the data, every sequence of batches and masks, every positive damping, every pair of logs with the modules of the fit", "why_tests_cant": "It concerns all splits and all numbers of processes, and needs several GPUs: the second synchronization also adds up tables of the first phase, and a test sees one split.", "anchors": ["logix/statistic/corrected_eigval.py:CorrectedEigval.update", "logix/state.py:LogIXState.covariance_svd,synchronize,normalize,finalize,get_covariance_svd_state", "logix/analysis/influence_function.py:InfluenceFunction.compute_influence,compute_self_influence"]}
{"id": "C105", "title": "The statistics of a session are those of the data of the user's program", "statement": "Let a new run be configured to compute means or covariances of the inputs, of the output gradients or of the per-sample gradients of its modules, without logging raw inputs or output gradients, and let a module be watched, once and under a name of its own. A program then logs any number of batches, with `with run(...)`, start and end, in which the model is run in any way, and calls finalize; no exception is raised. Then the mean and covariance of the inputs of the module (without masks) are the mean and the second moment over the inputs of all calls of the module; those of the output gradients are over all calls that the backward pass came through; and those of the gradients are over the batches, where the gradient of a batch is the sum of the per-sample gradients of the uses of the module whose output gradients arrived in it. Calls of other modules play no role. With masks each configured plugin receives exactly the masked inputs, in order.", "quantifier": "every configuration of statistics, every number of batches, every interleaving of calls of modules, arrivals of gradients, contexts, copies of the log and switches of saving, every use of a module any number of times per batch, every history before the first batch (for the updates received)", "why_tests_cant": "A test runs one model with one use of each layer in one or two batches; the claim is about all interleavings of hooks, contexts and modules, where hooks registered twice, left over, or attributed to another module would each go unnoticed in a simple run.", "anchors": ["logix/logix.py:LogIX.__call__,__enter__,__exit__,start,end,log,finalize", "logix/logging/logger.py:HookLogger.log,update,_forward_hook_fn,_backward_hook_fn,_grad_hook_fn,_grad_backward_hook_fn,register_all_module_hooks,clear", "logix/statistic/mean.py:Mean.update", "logix/statistic/covariance.py:Covariance.update"]}
{"id": "C106", "title": "After a session the scores are the influence function of the data of the user's program", "statement": "Let a new run be configured with covariances of the inputs and output gradients of its modules (KFAC), or with logs and covariances of the per-sample gradients (empirical Fisher), possibly with means, and without raw logs of inputs and output gradients. A program logs any number of batches, without masks, runs the model in any way in them, and calls finalize; no exception is raised. Then the score that compute_influence gives source i and target j, for any two logs of the watched modules and positive damping c, is the inner product of the gradient of the target with the solution x of B x A + c x = g (or of S x + c x = g), summed over the modules. A is the second moment of all inputs of the module in the program, B that of the gradients of its outputs, S that of its per-sample gradients in all batches. Solutions exist, and the score does not depend on which is taken. The same holds for self-influence.", "quantifier": "every program that logs batches (any number, any interleaving of calls of modules, gradients, contexts and modules used several times), every choice of watched modules, every pair of logs, every positive damping, hessian kfac, raw or auto", "why_tests_cant": "The claim goes from the calls the user makes to the scores, through hooks, contexts, statistics, finalize and preconditioning, for all programs and all data; a test compares a few numbers on one model, with one use of each layer.", "anchors": ["logix/logix.py:LogIX.__call__,__enter__,__exit__,start,end,log,finalize", "logix/logging/logger.py:HookLogger", "logix/statistic/covariance.py:Covariance.update", "logix/state.py:LogIXState.finalize,covariance_svd,covariance_inverse", "logix/analysis/influence_function.py:InfluenceFunction.precondition,compute_influence,compute_self_influence"]}
{"id": "C107", "title": "Per-sample gradients of grouped convolutions are the true gradients", "statement": "When logix logs the gradients of a Conv2d layer with any number of groups, the gradient logged for a sample is the gradient of the loss of that sample with respect to the weight: one row for each output channel, one entry for each input channel of its group and each position of the kernel. Hence inner products of logged gradients (dot scores, empirical Fisher) are those of the true gradients.", "quantifier": "every geometry (kernel, stride, padding, dilation), every number of groups and channels, every batch of images and output gradients", "why_tests_cant": "Test models use convolutions without groups, for which it holds; a test has fixed channels and sizes, and a wrong block of gradients shows in no shape that the tests check, since everything logged is internally consistent.", "anchors": ["logix/logging/utils.py:compute_per_sample_gradient", "logix/utils.py:module_check"]}
{"id": "C108", "title": "model_module says which modules are watched and how large their gradients are", "statement": "After watch (or add_lora that watches), model_module of the state has under 'path' the names of all tracked modules, each with 'grad', in the order of tracking, and under 'path_dim' the numbers of entries of their weights in the same order; updates of statistics, finalize, clear, decompositions, and add_lora(watch=False) keep both. The gradient that is logged for a sample of a linear or convolution layer has as many entries as path_dim says.", "quantifier": "every history of a run from a new state, every model and filters, every later sequence of operations that does not watch; every linear and convolution layer (groups included), every batch", "why_tests_cant": "Which entries survive clear and finalize depends on registries that plugins extend at run time, in any order; a test sees one order. Readers of the log split rows by these sizes, so a wrong size corrupts data silently instead of failing.", "anchors": ["logix/logix.py:LogIX.watch,add_lora,clear,finalize", "logix/state.py:LogIXState.set_state,clear,normalize", "logix/utils.py:get_repr_dim", "logix/logging/utils.py:compute_per_sample_gradient"]}
{"id": "C109", "title": "Self-influence shrinks with damping", "statement": "After a session was finalized, self-influences computed from the same statistics with dampings 0 < c <= c' satisfy, for every sample: with c' it is not larger than with c, it is not negative, and c times it is at most the square of the norm of the sample's gradient over all modules.", "quantifier": "every history of logged batches, every log of any number of modules and samples, every pair of positive dampings, hessian raw, kfac and auto", "why_tests_cant": "The claim is an inequality between the results of two computations for all data and all dampings; a test compares a few dampings on one model, where a wrong place of the damping (added twice, multiplied, added to one factor) gives plausible numbers.", "anchors": ["logix/analysis/influence_function.py:InfluenceFunction.precondition,compute_self_influence", "logix/state.py:LogIXState.get_covariance_inverse_state,get_covariance_svd_state"]}
{"id": "C110", "title": "No sample influences another more than their self-influences allow", "statement": "For logs of the same modules with gradients of the same sizes, the square of the score of a source and a target is at most the product of the self-influence of the source and the self-influence of the target, for the same statistics and damping. Hence rankings by influence over the roots of the self-influences are within [-1, 1].", "quantifier": "every history of logged batches, every pair of logs, every positive damping, hessian raw, kfac and auto", "why_tests_cant": "Cauchy-Schwarz for the scores needs that the preconditioner is positive and symmetric for all statistics and that three functions apply the same one; numerical tests on one model cannot show an inequality for all.", "anchors": ["logix/analysis/influence_function.py:InfluenceFunction.compute_influence,compute_self_influence,precondition"]}
{"id": "C111", "title": "The samples in the log directory are the per-sample gradients of the program", "statement": "After a program that watches modules, logs gradients and saves some of its batches (by run(save=True), end(save=True) or the save flag), the batches handed to the saver are exactly those that the program asked to save, in order, each with its ids; and if gradients arrive only within batches and the run is finalized, the dataset read back from the log directory has one sample per saved id, in order, and sample j of a batch has the id number j and, for every watched module, row j of the sum of the per-sample gradients of the uses of the module whose output gradients arrived in the batch. Batches that are not saved, model calls outside batches and other batches leave no trace in it.", "quantifier": "every configured session, every program of model runs and batches in either interface that goes through without exception, every flush threshold and number of workers up to one, every order in which the directory lists its files", "why_tests_cant": "The way from a module's call to a row on disk crosses the hooks, the accumulation in the log, the save flags, the buffer with its views, the flushing thread, the file format and the reader. Tests check the end result of one program; the claim is about all interleavings of calls, batches and flags.", "anchors": ["logix/logix.py:LogIX.__call__,__enter__,__exit__,start,end,finalize", "logix/logging/logger.py:HookLogger._grad_hook_fn,update,save_log", "logix/logging/log_saver.py:LogSaver.buffer_write,flush,finalize", "logix/logging/log_loader.py:LogDataset.__getitem__"]}
{"id": "C112", "title": "Scores against the log directory are the influence function of the data of the program", "statement": "After a program that watches modules, logs gradients with covariances (of forward and backward, or of grad), saves some of its batches and finalizes, the loader that build_log_dataloader makes on the log directory, in the same or in a new run and for every batch size, yields the saved samples; compute_influence_all of a source log against it, with positive damping, gives one score per source id and saved id. The score is the inner product of the per-sample gradient of the saved sample, as the program computed it, with the solution of the damped system (B x A + c x = g for KFAC, C x + c x = g for the empirical Fisher matrix) of the source gradient, where A, B and C are the second moments of all inputs, output gradients and per-sample gradients of the module in the program. The system has a solution and the score does not depend on its choice.", "quantifier": "every program, in either interface, that goes through without exception and whose gradients can be stored exactly; every flush threshold, listing order, batch size, source log and positive damping; every state of the result object that earlier calls may have left; conclusion for calls that return", "why_tests_cant": "It is the end-to-end claim of the library: data goes through hooks, log, statistics, saver, files, reader, collation, eigendecomposition and merging of the batches of scores. Tests check a tutorial's numbers to some tolerance.", "anchors": ["logix/logix.py:LogIX.build_log_dataloader,compute_influence_all", "logix/analysis/influence_function.py:InfluenceFunction.compute_influence_all", "logix/logging/logger.py:HookLogger._grad_hook", "logix/statistic/covariance.py:CovarianceState", "logix/logging/log_loader.py:LogDataset", "logix/logging/log_loader_utils.py:collate_nested_dicts"]}
{"id": "C113", "title": "Self-influence does not depend on how the samples are batched", "statement": "Calling compute_self_influence with one batch after the other gives, one after the other, the ids and the scores (in total and in every influence group) that one call with all samples gives.", "quantifier": "every log and every division of its samples into batches, every state reached by logging and earlier influence computations, hessian, damping, groups", "why_tests_cant": "Every call may leave inverses and eigendecompositions in the state which the next call uses; a test computes one batch.", "anchors": ["logix/analysis/influence_function.py:InfluenceFunction.compute_self_influence", "logix/analysis/influence_function_utils.py"]}
{"id": "C114", "title": "trainer.self_influence makes the self-influence scores available", "statement": "After trainer.self_influence(...) of a trainer patched for Hugging Face or Lightning, the self-influence score of every sample of the data is available: as the return value, or from logix.influence.get_self_influence_scores().", "quantifier": "every data, schedule, damping, groups, and every state of the influence object", "why_tests_cant": "No test calls the method, and a test of the numbers would have nothing to compare: the loss of the result shows only across callback, method and influence object together.", "anchors": ["logix/huggingface/patch.py:self_influence", "logix/huggingface/callback.py:on_step_end", "logix/lightning/patch.py:self_influence", "logix/lightning/callback.py:on_train_batch_end", "logix/analysis/influence_function.py:InfluenceFunction.get_self_influence_scores"]}
{"id": "C115", "title": "After logging what the Hessian needs, influence computations return", "statement": "If the data for the covariances was logged and finalized, then compute_influence, compute_self_influence and compute_influence_all for logs of per-sample gradients of the same modules do not raise: they return the scores of C94.", "quantifier": "every history of well-shaped batches (any number, order, batch sizes, widths, cpu_offload) that logs what the hessian asks for, every source and target log of gradients of the same modules, hessian raw, kfac or auto, every positive damping, with or without preconditioning and groups that have a module; mode dot on every device, l2 and cosine with the source on the CPU; any number of calls one after the other", "why_tests_cant": "Tests run a few shapes. Whether every intermediate lookup, shape and device fits, for all histories and logs and after earlier calls have left eigendecompositions or inverses behind, and whether the damped matrices are always invertible, no test can settle.", "anchors": ["logix/analysis/influence_function.py:InfluenceFunction.compute_influence", "logix/analysis/influence_function.py:InfluenceFunction.compute_self_influence", "logix/analysis/influence_function.py:InfluenceFunction.compute_influence_all", "logix/analysis/influence_function_utils.py:precondition_kfac", "logix/analysis/influence_function_utils.py:precondition_raw", "logix/state.py:LogIXState.get_covariance_svd_state", "logix/state.py:LogIXState.get_covariance_inverse_state"]}
{"id": "C116", "title": "The ids that the Hugging Face trainer gives identify the samples", "statement": "get_data_id of the patched trainer gives the same sample the same id in every batch and different samples different ids.", "quantifier": "every pair of batches of token sequences, every padding token and length, left or right padding, every hash without collisions, every tokenizer that skips special tokens", "why_tests_cant": "Two runs that batch the same data differently pad it differently. Tests compare ids within one batch or one run; whether ids agree for all batchings and whether different sequences can share an id is a statement about all of them.", "anchors": ["logix/huggingface/patch.py:get_data_id", "logix/utils.py:DataIDGenerator"]}
{"id": "C117", "title": "The patched trainers only look at the model", "statement": "extract_log, influence and self_influence of the patched trainers leave the parameters and buffers of the model as they were, and every batch is logged as the unchanged model in evaluation mode processes it.", "quantifier": "every model (any passes over a batch that do not change buffers in evaluation mode), every sequence of batches and epochs, gradient accumulation, clipping, every optimizer in every state", "why_tests_cant": "A test with one optimizer and a model without normalization or dropout sees no change. That no optimizer, optimizer state, accumulation or kind of model changes the weights or makes a log depend on earlier batches is a statement about all of them.", "anchors": ["logix/huggingface/patch.py:create_optimizer", "logix/huggingface/patch.py:training_step", "logix/lightning/callback.py:LogIXCallback.on_before_optimizer_step", "logix/lightning/callback.py:LogIXCallback.on_train_epoch_start"]}
{"id": "C118", "title": "Only the gradients of the logs matter for influence", "statement": "compute_influence and compute_self_influence look at the gradients in the logs only: logging forward or backward activations as well (setup({'log': ['forward', 'grad']})) changes no score, and no computation that returns without them raises with them.", "quantifier": "every pair of logs (any modules, types of entries, devices), every mode, Hessian, groups, damping, with and without preconditioning, every state", "why_tests_cant": "Tests log gradients only. That no combination of other entries, their order and their devices matters is a statement about all logs.", "anchors": ["logix/analysis/influence_function.py:InfluenceFunction.compute_influence", "logix/analysis/influence_function.py:InfluenceFunction.compute_self_influence", "logix/utils.py:synchronize_device", "logix/analysis/influence_function_utils.py:precondition_kfac", "logix/analysis/influence_function_utils.py:precondition_raw"]}
{"id": "C119", "title": "Influence scores do not depend on where the logs are", "statement": "compute_influence (mode dot) and compute_self_influence give the same scores for logs with the same numbers on other devices: on the CPU, on one GPU, or spread over several GPUs as with a model split over devices.", "quantifier": "every pair of logs and every placement of their tensors, every Hessian, groups, damping, with and without preconditioning, every state", "why_tests_cant": "Tests run on one device. That no placement of source, target, statistics and scores changes a number or raises is a statement about all placements.", "anchors": ["logix/analysis/influence_function.py:InfluenceFunction.compute_influence", "logix/analysis/influence_function.py:InfluenceFunction.compute_self_influence", "logix/utils.py:synchronize_device", "logix/analysis/influence_function_utils.py:precondition_kfac", "logix/analysis/influence_function_utils.py:precondition_raw", "logix/analysis/influence_function_utils.py:cross_dot_product"]}
{"id": "C120", "title": "Influence computations leave the logs alone", "statement": "compute_influence does not change the source and target logs that it is given; the user can go on using them.", "quantifier": "every pair of logs, every mode, Hessian, damping, with and without preconditioning, every state; calls that return and calls that raise", "why_tests_cant": "Tests compare scores, not the arguments afterwards, and run on one device.", "anchors": ["logix/analysis/influence_function.py:InfluenceFunction.compute_influence", "logix/utils.py:synchronize_device"]}
{"id": "C121", "title": "In every mode and for every group the scores come from the influence function of the data", "statement": "After logging data for the covariances and finalizing, let x be the solution of the damped system (as in C94) for the gradient of source i and y that for the gradient of target j. For the total and for every group (different names, none of them 'total', source and target logs of the same modules in the same order), compute_influence returns <x, g_j> summed over the modules of the group in mode dot, <x, g_j> - 1/2 <y, g_j> in mode l2, and <x, g_j> / sqrt(<y, g_j>) in mode cosine. compute_self_influence returns <x, g_i> for every group. The same holds for a session, with the second moments of the data of the user's program (as in C106).", "quantifier": "every history of mean and covariance statistics, every program that logs batches without masks, every pair of logs of the same modules, every mode, every list of groups, KFAC, raw and auto, every positive damping, every correct eigh and inverse", "why_tests_cant": "Norms are computed by a second preconditioning in a state that the first one changed, over modules selected by substrings; tests compare a few numbers in mode dot.", "anchors": ["logix/analysis/influence_function.py:InfluenceFunction.compute_influence,compute_self_influence,precondition", "logix/analysis/influence_function_utils.py:precondition_kfac,precondition_raw,cross_dot_product", "logix/state.py:LogIXState.get_covariance_svd_state,get_covariance_inverse_state"]}
{"id": "C122", "title": "Programs that log batches that fit together never raise, and influence scores after them are computed", "statement": "Configure a new run with logs, means and covariances and watch linear layers and 2D convolutions. Then log batches with either interface, with any calls of the watched modules in any order (several times or not at all in a batch), where inputs and gradients have the shapes of the module, gradients have one row per id, masks have one entry per position, and for a batch that is saved every module has got a gradient. Then no operation raises, flushes of the buffer included, nor does finalize. Afterwards compute_influence returns for every pair of logs with gradients of these shapes and positive damping, and (for programs without masks) its scores are the influence function of the data of the program.", "quantifier": "every configuration and watched modules of this kind, every program of this kind with any number of batches, tensors of every size on every device, every flush threshold, KFAC, raw and auto, every pair of logs", "why_tests_cant": "Whether something raises depends on the order of the calls and on shapes over a whole run (state that accumulates, hooks left from earlier batches, a flush in the middle); a test runs one program.", "anchors": ["logix/logix.py:LogIX.__enter__,__exit__,start,end,finalize,log", "logix/logging/logger.py:HookLogger._forward_hook_fn,_backward_hook_fn,_grad_hook_fn,update,save_log,register_all_module_hooks", "logix/logging/log_saver.py:LogSaver.buffer_write,flush,_flush_serialized", "logix/statistic/mean.py:Mean.update", "logix/statistic/covariance.py:Covariance.update", "logix/state.py:LogIXState.finalize,synchronize", "logix/analysis/influence_function.py:InfluenceFunction.compute_influence"]}
{"id": "C123", "title": "A mask that keeps everything changes nothing", "statement": "Logging batches with a mask of ones gives the same statistics after finalize as logging the same batches without a mask.", "quantifier": "every batch, module, statistic and history", "why_tests_cant": "Statistics with and without masks are each plausible numbers; a test compares either with a formula, not with one another, and inputs with one position per sample show no difference.", "anchors": ["logix/statistic/covariance.py:Covariance.update", "logix/statistic/mean.py:Mean.update", "logix/logging/logger.py:HookLogger._forward_hook_fn"]}
{"id": "C124", "title": "From a logging program to the scores against its log directory, everything returns", "statement": "Configure a new run with logs of the gradients and covariances, log batches that fit together without masks, save some of them, call finalize. Nothing raises. Then build_log_dataloader on the log directory, in the same or in a new run, for any order of the directory listing and any batch size, works and its batches can be read; compute_influence_all for any source log with gradients of the shapes of the modules and positive damping returns, with one score per source id and saved id, in the order of saving: the influence function of the gradients that the program had for that sample, with the Hessian approximation from the data of the program.", "quantifier": "every configuration and program of the kind of C122 whose saved numbers are exact in the storage type, every flush threshold, every listing and batch size, KFAC, raw and auto, every source log", "why_tests_cant": "It joins the hooks, the statistics, the files and the analysis over runs of any length; a test runs one small program and cannot know the right scores otherwise.", "anchors": ["logix/logix.py:LogIX.build_log_dataloader,finalize,__exit__,end", "logix/logging/log_saver.py:LogSaver", "logix/logging/log_loader.py:LogDataset.__getitem__", "logix/analysis/influence_function.py:InfluenceFunction.compute_influence_all"]}
{"id": "C125", "title": "With a token mask the statistics of a session are those of its tokens", "statement": "Log sequences of different lengths, padded to a common length per batch, with a mask of zeros and ones (as the Hugging Face integration passes the attention mask). After finalize the forward mean and covariance of every linear layer are the averages over the tokens of the program that are not padding, over all batches; the same holds for the backward statistics when the output gradients are zero at the padding. Influence scores then use these moments of the tokens.", "quantifier": "every session of any number of batches, lengths, masks and modules; every query; KFAC", "why_tests_cant": "The average must be weighted by tokens over all batches and not per sequence or per batch; a test compares one short run.", "anchors": ["logix/logging/logger.py:HookLogger._forward_hook_fn,_backward_hook_fn", "logix/statistic/mean.py:Mean.update", "logix/statistic/covariance.py:Covariance.update", "logix/huggingface/patch.py:patch_trainer", "logix/analysis/influence_function.py:InfluenceFunction.compute_influence"]}
{"id": "C126", "title": "How sequences are padded does not matter", "statement": "Two logging programs with the same tokens in the same batches, but padded to different lengths, on the left or the right or in between, and with any values in the padded positions of the activations, give the same per-sample gradients, the same statistics, and the same influence and self-influence scores, when the output gradients are zero at the padding.", "quantifier": "every two programs with the same tokens per sample, every mask of zeros and ones, all statistics of forward, backward and grad, all scores", "why_tests_cant": "It compares all ways to pad; a test compares two.", "anchors": ["logix/logging/logger.py:HookLogger._forward_hook_fn,_backward_hook_fn,_grad_hook_fn", "logix/logging/utils.py:compute_per_sample_gradient", "logix/statistic/mean.py:Mean.update", "logix/statistic/covariance.py:Covariance.update", "logix/analysis/influence_function.py:InfluenceFunction.compute_influence,compute_self_influence"]}
{"id": "C127", "title": "With a token mask the backward statistics are averages over the unmasked positions", "statement": "When batches are logged with a mask of zeros and ones, the backward mean and covariance of a linear layer after finalize are the averages over the output gradients at the unmasked positions, whatever the gradients at the masked positions are.", "quantifier": "every list of masked batches", "why_tests_cant": "It depends on gradients at padded positions, which are zero in most tests because the loss ignores them.", "anchors": ["logix/logging/logger.py:HookLogger._backward_hook_fn", "logix/statistic/mean.py:Mean.update", "logix/statistic/covariance.py:Covariance.update"]}
{"id": "C128", "title": "Distributed logging programs never raise and give the influence function of all data", "statement": "W processes, each with its own devices and data, watch the same modules and run logging programs that fit together, without masks. If they meet the quantities in the same order, then no operation raises on any process, and finalize, run by all of them, returns on every process. Afterwards the means and covariances on every process are those of the data of all programs together, and compute_influence with positive damping returns on every process the influence function of the data of all programs.", "quantifier": "every number of processes, all programs that fit together, all splits of data over processes, every query; KFAC and empirical Fisher", "why_tests_cant": "It needs a multi-process run with collectives and compares it with the closed formula for the pooled data, for all programs.", "anchors": ["logix/logix.py:LogIX.finalize", "logix/state.py:LogIXState.finalize,synchronize", "logix/logging/logger.py:HookLogger", "logix/statistic/covariance.py:Covariance.update", "logix/analysis/influence_function.py:InfluenceFunction.compute_influence"]}
{"id": "C129", "title": "Processes that run the same program on different data stay in step", "statement": "Several processes run the same logging program: the same setup and watch calls, the same sequence of model calls, gradients and contexts. The tensors, ids and masks may differ, and each process may save its logs or not. If the programs run through, then all processes hold means and covariances of the same modules and log types in the same order, so that the collectives of finalize pair the same quantities. If in addition the program fits the tensors of every process, nothing raises and finalize returns everywhere.", "quantifier": "every number of processes, all programs of model calls, hooks, contexts, saving and get_log, all data, masks and plugins", "why_tests_cant": "It relates pairs of runs on arbitrary different data over arbitrarily long programs; tests run a few programs on a few batches.", "anchors": ["logix/logix.py:LogIX.finalize,__call__,__enter__,__exit__,start,end,log,watch,setup", "logix/logging/logger.py:HookLogger", "logix/state.py:LogIXState.synchronize", "logix/statistic/covariance.py:Covariance.update"]}
{"id": "C130", "title": "Scores do not depend on batch size or number of processes", "statement": "Two runs log the same samples: the inputs of every watched module and the gradients of its outputs (KFAC), or its per-sample gradients (empirical Fisher), are the same samples, but cut into batches differently, in another order, and divided among another number of processes. Then both runs go through, and after finalize every process of either run gives the same scores for all gradient logs and every positive damping, whatever eigendecomposition and inverse routines the two runs use. (A loss that averages over the batch makes the gradients themselves depend on the batch size; then the samples are not the same.)", "quantifier": "all numbers of processes in both runs, all programs that fit together, all batch sizes and orders of samples, all data, all logs, all positive dampings", "why_tests_cant": "It compares all pairs of ways to cut and divide arbitrary data; a test compares a few of them, up to rounding.", "anchors": ["logix/statistic/covariance.py:Covariance.update", "logix/state.py:LogIXState.synchronize,normalize,finalize", "logix/logix.py:LogIX.finalize,compute_influence", "logix/logging/logger.py:HookLogger"]}
{"id": "C131", "title": "What is logged for a sample does not depend on the rest of its batch", "statement": "If a sample has the same inputs and the same output gradients in every use of the watched modules in two runs, then the log directories of the two runs hold arrays of the same values for it, for every watched module, whatever the other samples of its batch, the size of the batch, its position in it, the other batches of the run and the number format in which the run stores its numbers exactly.", "quantifier": "all pairs of programs that log gradients, all batches and positions in them, all linear and convolution layers used any number of times, all data", "why_tests_cant": "It compares all pairs of batches that share a sample; a test compares a few of them, up to rounding.", "anchors": ["logix/logging/utils.py:compute_per_sample_gradient", "logix/logging/logger.py:HookLogger", "logix/logging/log_saver.py:LogSaver", "logix/logging/log_loader_utils.py"]}
{"id": "C132", "title": "The log of a run with LoRA is the projected log of the run without", "statement": "If in a batch the bottlenecks of the LoRA wrappers see what comes through encoder and decoder from the inputs and output gradients of the wrapped layers, then the arrays in the log directory of the run with LoRA are, for every sample of the batch and every module, the projections D^T G A^T of the arrays G in the log directory of a run that logs the layers themselves, for linear layers and for convolutions without dilation, however often the modules are used in the batch.", "quantifier": "all pairs of logging programs, all batches and samples, all ranks, all encoder and decoder weights, all linear layers and convolutions without dilation and groups, all data", "why_tests_cant": "It relates the files of two whole runs for all weights and data; a test compares the gradients of one layer, up to rounding.", "anchors": ["logix/lora/modules.py:LoraLinear", "logix/lora/modules.py:LoraConv2d", "logix/logging/utils.py:compute_per_sample_gradient", "logix/logging/logger.py:HookLogger", "logix/logging/log_saver.py:LogSaver"]}
{"id": "C133", "title": "With LoRA, statistics and scores are those of the projected statistics of the layers", "statement": "The covariances that a session with LoRA holds are A M A^T for the inputs, D^T N D for the output gradients and the projection in rows and columns of the second moment of the gradients, where M, N and the latter are the second moments of the wrapped layers. Scores of such a session, with KFAC or the empirical Fisher matrix, are the influence function with these projected matrices.", "quantifier": "all sessions that collect covariances as in C106, all ranks and weights, all linear layers and convolutions without dilation and groups, all data and logs with gradients of the bottlenecks, every positive damping", "why_tests_cant": "It is an identity for all weights and data between the state of one session and what another would have collected.", "anchors": ["logix/lora/modules.py:LoraLinear", "logix/lora/modules.py:LoraConv2d", "logix/statistic/covariance.py:Covariance", "logix/analysis/influence_function.py:InfluenceFunction"]}
{"id": "C134", "title": "Without damping, scores are the influence function with a tenth of the mean eigenvalue", "statement": "After logging for covariances in a new run and finalize, compute_influence and compute_self_influence without damping give, for the total and for every group, the influence function of the logged data as in C121, with a tenth of the mean eigenvalue of the Hessian as damping. With the empirical Fisher matrix every module has the damping of its own matrix. With KFAC all modules have the damping of the first module in the log.", "quantifier": "all sessions that collect covariances, all data, all logs with gradients for the logged modules, all modes and groups; with KFAC the mean eigenvalue is positive", "why_tests_cant": "It is an identity for all data that involves the eigenvalues of matrices which the run computes; a test compares with numbers that the same formula gave.", "anchors": ["logix/analysis/influence_function_utils.py:precondition_kfac", "logix/analysis/influence_function_utils.py:precondition_raw", "logix/state.py:covariance_inverse", "logix/analysis/influence_function.py:InfluenceFunction.compute_influence"]}
{"id": "C135", "title": "Scores do not depend on the order of modules and batches", "statement": "Two new runs log the same batches for covariances, in any order of batches and modules, and call finalize. For the same gradients, with the modules in any order in the logs, compute_influence and compute_self_influence give the same scores in both, for the total and every group and in every mode.", "quantifier": "all data, all orders of calls, all orders of modules in the logs, all modes, groups, kinds of Hessian and dampings", "why_tests_cant": "The orders of the batches and of the modules are factorially many, and the case that fails needs two modules, KFAC and no damping.", "anchors": ["logix/analysis/influence_function_utils.py:precondition_kfac", "logix/analysis/influence_function_utils.py:precondition_raw", "logix/analysis/influence_function.py:InfluenceFunction.compute_influence"]}
{"id": "C136", "title": "Without damping, the scale of the loss does not matter", "statement": "A new run logs data for covariances and calls finalize. A second run does the same with the loss multiplied by a number that is not zero, so that all output gradients and per-sample gradients are multiplied by it. Then compute_influence and compute_self_influence without damping give the same scores in the second run, for the multiplied gradients, as in the first, in all modes, for the total and every group. With a damping they do so if the damping is multiplied by the square of the number.", "quantifier": "all data, all factors that are not zero, all modes, groups and kinds of Hessian (KFAC and empirical Fisher), with positive damping, given or default", "why_tests_cant": "It compares two runs for all data and factors; a test with one factor does not see a damping or a normalisation that is not homogeneous.", "anchors": ["logix/statistic/covariance.py:Covariance", "logix/analysis/influence_function_utils.py:precondition_kfac", "logix/analysis/influence_function_utils.py:precondition_raw", "logix/state.py:covariance_inverse", "logix/analysis/influence_function.py:InfluenceFunction.compute_influence"]}
{"id": "C137", "title": "Several passes over the data give the scores of one pass", "statement": "A new run logs batches for covariances and calls finalize. A second run logs every one of these batches n times, in any order, as in n epochs. Then compute_influence and compute_self_influence give the same scores in both, with or without damping, in all modes, for the total and every group.", "quantifier": "all data, all n > 0, all orders, all modes, groups and kinds of Hessian (KFAC and empirical Fisher), with positive damping, given or default", "why_tests_cant": "It compares two runs for all numbers of passes; the statistics are averages only if the counters and the sums are kept in step over all of them.", "anchors": ["logix/statistic/covariance.py:Covariance", "logix/analysis/influence_function_utils.py:precondition_kfac", "logix/analysis/influence_function_utils.py:precondition_raw", "logix/state.py:covariance_inverse", "logix/analysis/influence_function.py:InfluenceFunction.compute_influence"]}
{"id": "C138", "title": "EKFAC scores are those of the data of the two programs", "statement": "A new run is configured with covariances of forward and backward, batches are logged by any program and finalize is called. It is configured with corrected_eigval of grad, batches are logged by a second program and finalize is called. Then compute_influence with damping gives, for each source and target, the bilinear form of the inverse of the damped EKFAC Hessian: diagonal in orthonormal eigenvectors of the second moments of all inputs of the module and of all gradients of its outputs in the first program, with the averages of the squares of the entries of the per-sample gradients of the second program as eigenvalues. compute_self_influence gives the form of a sample with itself. If no eigenvalue of the second moments occurs twice, the scores do not depend on the choice of the eigenvectors.", "quantifier": "all pairs of programs (any number of batches, modules called any number of times, shared modules, both interfaces), all logs, all positive dampings", "why_tests_cant": "It follows the data of all programs through hooks, plugins, two calls of finalize and the eigendecomposition to the scores; tests fix one program.", "anchors": ["logix/logix.py:LogIX.finalize", "logix/logging/logger.py:HookLogger", "logix/statistic/corrected_eigval.py:CorrectedEigval", "logix/statistic/covariance.py:Covariance", "logix/state.py:LogIXState.get_covariance_svd_state", "logix/analysis/influence_function_utils.py:precondition_kfac"]}
{"id": "C139", "title": "initialize_from_log restores the statistics of state_path, whatever LoRA does", "statement": "A run (any sequence of watch, add_lora, logging, use of the covariances, clear) calls finalize. Another run, which has not used its covariances, calls initialize_from_log, and the directory for state_path (the log directory if it is not given or empty) has the statistics that the first run saved. Then, for any lora_path, and whether LoRA layers are added, loaded or left alone, every saved state is the one of the first run, and every sequence of influence computations gives the answers or errors that the first run would give.", "quantifier": "all pairs of runs, all state_path and lora_path, all LoRA configurations and initialisations, rank 0 or not", "why_tests_cant": "add_lora inside initialize_from_log clears the state, watches again and writes to the log directory; that none of it reaches the restored statistics must hold for every configuration of directories.", "anchors": ["logix/logix.py:LogIX.initialize_from_log", "logix/logix.py:LogIX.add_lora", "logix/logix.py:LogIX.finalize", "logix/state.py:LogIXState.load_state"]}
{"id": "C140", "title": "Scores do not depend on the coordinates of the layers", "statement": "Two new runs log data for the covariances and are finalized. The data of the second run is that of the first one in other coordinates: for each watched layer the inputs are multiplied by an orthogonal matrix and the gradients of the outputs by another one (the hidden units are in another order, have other signs, or are rotated), and the gradients of the weights accordingly. Then compute_influence and compute_self_influence of the gradients in these coordinates give the same scores in both runs, with KFAC and with the empirical Fisher matrix, in modes dot, l2 and cosine, for the total and every group, with any damping, and without one.", "quantifier": "all histories of updates, all orthogonal matrices for each layer, all logs, modes, groups and dampings (given, or the default if positive), any two eigendecompositions", "why_tests_cant": "Equivalence of two networks under a symmetry group; tests can only try single matrices, and floating point hides small dependencies.", "anchors": ["logix/analysis/influence_function.py:InfluenceFunction.compute_influence", "logix/analysis/influence_function.py:InfluenceFunction.compute_self_influence", "logix/analysis/influence_function_utils.py:precondition_kfac", "logix/analysis/influence_function_utils.py:precondition_raw", "logix/statistic/covariance.py:Covariance"]}
{"id": "C141", "title": "A loop over the log loader that ends has served every sample completely", "statement": "Whatever is in the log directory (samples of several sessions or of different sets of modules, damaged files): a loop over the log data loader either raises or goes over all samples of the metadata files in order, in batches of the requested size, every sample having been read, and every tensor of a batch has a row for each id of the batch.", "quantifier": "all datasets, with no assumption on shapes, modules or contents; all batch sizes; nested and flattened views", "why_tests_cant": "Needs all directory contents including damaged and mixed ones; tests use one homogeneous session.", "anchors": ["logix/logix.py:LogIX.build_log_dataloader", "logix/logging/log_loader.py:LogDataset.__getitem__", "logix/logging/log_loader_utils.py:collate_nested_dicts,_merge_dicts"]}
{"id": "C142", "title": "Another process computes the same scores from the directory of a finalized run", "statement": "A program logs batches, saves some of them and calls finalize. Another process with a new instance loads the statistics that finalize left, builds a loader of the log directory and calls compute_influence_all. Everything returns, and the scores are the influence function of the data of the program: the inner products of the per-sample gradients of the saved samples with the solutions of the damped systems of the second moments in the program. In every sequence of calls of compute_influence_all the other process sees the results, saved scores and errors that the first run sees.", "quantifier": "all programs whose batches fit together, all settings of flushing, listing orders and batch sizes, all source logs and positive dampings; for the second part all histories of statistics (with fitted eigenvalues too) and all sequences of calls", "why_tests_cant": "Composition of storing, restoring and computing over all programs; a test can compare two processes for one program.", "anchors": ["logix/logix.py:LogIX.finalize,initialize_from_log,build_log_dataloader", "logix/state.py:LogIXState.save_state,load_state", "logix/analysis/influence_function.py:InfluenceFunction.compute_influence_all", "logix/logging/log_loader.py:LogDataset"]}
{"id": "C143", "title": "Scores against the log directory in every mode and for every group are those of the data of the program", "statement": "A program logs batches, saves some of them and calls finalize. compute_influence_all against a loader of the log directory returns, for the total and for every group, one score per source sample and saved sample. In mode dot it is the inner product, over the modules of the group, of the per-sample gradient of the saved sample in the program with the solution x of the damped system for the gradient of the source. In mode l2 half of the product of that gradient with the solution y of the same system for itself is subtracted, in mode cosine the score is divided by the root of that product.", "quantifier": "all programs whose logs can be stored, flush thresholds, listing orders and batch sizes, all source logs with the modules of the program, modes, groups and positive dampings, after any earlier influence computations with the same damping; the calls return for all programs whose batches fit together", "why_tests_cant": "The norms of the targets are computed batch by batch by calls that change the state; that they are those of the data is a statement about all programs, batchings and modes.", "anchors": ["logix/analysis/influence_function.py:InfluenceFunction.compute_influence,compute_influence_all", "logix/logix.py:LogIX.build_log_dataloader", "logix/logging/log_loader.py:LogDataset"]}
{"id": "C144", "title": "What is logged has the element type that log_dtype names", "statement": "If log_dtype in the logging configuration is the name of an element type of PyTorch, then at any time every tensor of the batch log (the live log, and the copy that get_log returns), every array that waits in the save buffer and every array in the log directory has that type.", "quantifier": "all names of element types that NumPy has too, and all programs: any sequence of model events, contexts, saving, setup, finalize and clear, also after exceptions", "why_tests_cant": "Each hook converts on its own, tensors of the model are shared with the log, and later uses of a module are added in place; that no tensor of another type gets into the log is a statement about all programs. A test of one name does not show what an unlisted name does.", "anchors": ["logix/config.py:LoggingConfig.get_dtype", "logix/logging/logger.py:HookLogger._forward_hook_fn,_backward_hook_fn,_grad_hook_fn,_tensor_forward_hook_fn", "logix/logging/log_saver.py:LogSaver.buffer_write"]}
{"id": "C145", "title": "With much damping the preconditioned scores are the plain ones over the damping", "statement": "After finalize, let t0 be the scores of compute_influence in mode dot without preconditioning and t(c) those with preconditioning and damping c. For each source i and target j there is a number B, the same for all positive c, with |c * t(c)[i,j] - t0[i,j]| <= B / c. So if one target has a larger plain score than another, it has a larger preconditioned score for all dampings from some point on.", "quantifier": "all histories of logged data, Hessians raw, kfac and auto, logs, samples and positive dampings", "why_tests_cant": "A test compares the scores for some dampings; that the error is at most a constant over the damping, for all dampings, is a statement about all of them.", "anchors": ["logix/analysis/influence_function.py:InfluenceFunction.compute_influence,precondition", "logix/analysis/influence_function_utils.py:precondition_kfac,precondition_raw", "logix/state.py:LogIXState.get_covariance_svd_state,get_covariance_inverse_state"]}
{"id": "C146", "title": "The self-influence of a logged sample is at most the number of samples", "statement": "A program logs per-sample gradients and their covariances without masks and calls finalize. Then compute_self_influence with the empirical Fisher matrix (hessian raw or auto) gives every sample of the program a score of at most the number of logged samples times the number of modules, whatever its gradient is and whatever positive damping is used: no outlier can have a larger score.", "quantifier": "all programs, models, gradients, logs with samples of the program and positive dampings", "why_tests_cant": "A test with some gradients cannot show a bound for all gradients; large outliers are exactly what tests miss.", "anchors": ["logix/analysis/influence_function.py:InfluenceFunction.compute_self_influence,precondition", "logix/analysis/influence_function_utils.py:precondition_raw", "logix/statistic/covariance.py:Covariance.update", "logix/state.py:LogIXState.finalize"]}
{"id": "C147", "title": "add_lora leaves LoRA layers alone", "statement": "Calling add_lora on a model that already has LoRA layers does not change them: afterwards watch tracks the modules that it tracked before.", "quantifier": "every model, configuration and filter", "why_tests_cant": "Tests add LoRA once; that a further call does no harm is a statement about all models, also those add_lora has changed.", "anchors": ["logix/lora/lora.py:LoRAHandler.add_lora", "logix/utils.py:module_check", "logix/lora/utils.py:is_lora", "logix/logix.py:LogIX.add_lora,watch"]}
{"id": "C148", "title": "With precondition=False no Hessian is used", "statement": "compute_influence and compute_self_influence with precondition=False give scores of the plain gradients: in every mode the scores do not depend on the collected statistics, on the chosen Hessian or on the damping.", "quantifier": "all logs, modes, groups, states, Hessians and dampings", "why_tests_cant": "That scores do not depend on something is a statement about all pairs of states; tests of the modes l2 and cosine use precondition=True.", "anchors": ["logix/analysis/influence_function.py:InfluenceFunction.compute_influence,compute_self_influence"]}
{"id": "C149", "title": "Logs with different modules are rejected", "statement": "compute_influence returns scores only if the source log and the target log have the same modules; otherwise it raises, so no module is left out of a score unnoticed.", "quantifier": "all labelled nested logs, modes, groups, states, Hessians and dampings", "why_tests_cant": "Which modules two logs have depends on how each was collected; tests compare logs of the same model with the same watched modules.", "anchors": ["logix/analysis/influence_function.py:InfluenceFunction.compute_influence", "logix/utils.py:synchronize_device"]}
{"id": "C150", "title": "The average self-influence of the logged data is at most the number of weights", "statement": "After a logging program with covariances of the gradients and finalize, the self-influence scores of all samples of the program, each taken once, sum to at most the number of samples times the number of weights of the watched modules, whatever the data and whatever positive damping is used.", "quantifier": "all programs, models, data, batch sizes, positive dampings", "why_tests_cant": "A bound over all data sets and dampings; single runs can only show that it was not exceeded. Wrong normalisation of the covariance (per batch, per token, twice) breaks it.", "anchors": ["logix/analysis/influence_function.py:InfluenceFunction.compute_self_influence", "logix/analysis/influence_function_utils.py:precondition_raw", "logix/statistic/covariance.py:Covariance.update"]}
{"id": "C151", "title": "Scores of weighted sums of gradients are the weighted sums of the scores", "statement": "In mode dot, with and without preconditioning, with any Hessian and damping (also the default damping): if the gradient of a source is a weighted sum of the gradients of other sources, in every module, then its influence scores, in total and for every group, are the same weighted sums of the scores of these sources. The same holds for targets. So the influence of a batch on a test set is the sum of the influences of its samples.", "quantifier": "all states, logs, weights, groups, Hessians, dampings", "why_tests_cant": "A statement over all linear combinations and all states; tests compare single numbers. A damping or normalisation computed from the gradients themselves would break it.", "anchors": ["logix/analysis/influence_function.py:InfluenceFunction.compute_influence", "logix/analysis/influence_function_utils.py:cross_dot_product", "logix/analysis/influence_function_utils.py:precondition_raw", "logix/analysis/influence_function_utils.py:precondition_kfac"]}
{"id": "C152", "title": "The mean square influence of a query on the logged data is bounded by its self-influence", "statement": "After a logging program with covariances of the gradients and finalize, take any query gradients as sources and the log of all samples of the program, each once, as targets. Whatever the data, the queries and the positive damping are, the mean of the squares of the influence scores of a query over the logged samples is at most the number of watched modules times the self-influence of the query.", "quantifier": "all programs, models, data, queries, batch sizes, positive dampings", "why_tests_cant": "A bound over all data sets, queries and dampings; single runs can only show that it was not exceeded. It fails if the scores and the self-influence use different Hessians or dampings, or if the covariance is normalised wrongly.", "anchors": ["logix/analysis/influence_function.py:InfluenceFunction.compute_influence", "logix/analysis/influence_function.py:InfluenceFunction.compute_self_influence", "logix/analysis/influence_function_utils.py:precondition_raw", "logix/statistic/covariance.py:Covariance.update"]}
{"id": "C153", "title": "Test batches processed after eval() leave the statistics and the scores alone", "statement": "eval() sets LogIX for testing: after it, a program can run any test batches (contexts, model calls, gradients, watched activations, copies of logs), and the statistics, and so all scores computed from given gradients, stay as they were.", "quantifier": "all sessions, all programs of test operations, also with exceptions", "why_tests_cant": "Over all programs and interleavings; whether test data leaks into the Hessian shows only as slightly different numbers.", "anchors": ["logix/logix.py:LogIX.eval", "logix/logix.py:LogIX.setup", "logix/logging/logger.py:HookLogger.update", "logix/logging/option.py:LogOption.setup"]}
{"id": "C154", "title": "start/end and the with statement have the same effect", "statement": "LogIX offers two programming interfaces for a batch. In every state, start(ids, mask), any operations, end(save) and `with run(ids, mask, save)` around the same operations have the same effect: one runs without exception exactly when the other does, and logs, statistics, save buffer, files, hooks and options are the same afterwards. When an operation raises, the with statement has the effect of end in a finally block.", "quantifier": "all states, ids, masks, programs inside the batch", "why_tests_cant": "An equivalence over all programs and states; tests run single batches through one interface each. The two paths set and read different flags.", "anchors": ["logix/logix.py:LogIX.__call__", "logix/logix.py:LogIX.__enter__", "logix/logix.py:LogIX.__exit__", "logix/logix.py:LogIX.start", "logix/logix.py:LogIX.end"]}
{"id": "C155", "title": "Opening a log directory never passes over a data file", "statement": "When LogDataset(log_dir) succeeds, every file log_*.mmap in the directory was opened: there are as many memory maps as such files, in whatever order the directory is listed, and the name of each tells its rank and chunk number. A file log_*.mmap whose name does not contain rank_<n>_chunk_<n> makes the constructor raise; it is never left out silently.", "quantifier": "all directories, listings in any order, other files in the directory", "why_tests_cant": "Quantifies over all directory contents, including files that LogIX did not write; tests list directories written by the saver.", "anchors": ["logix/logging/log_loader_utils.py:find_chunk_indices", "logix/logging/log_loader_utils.py:extract_rank_and_chunk", "logix/logging/log_loader.py:LogDataset.fetch_data"]}
{"id": "C156", "title": "A chunk write that returns has stored every array completely", "statement": "When MemoryMapHandler.write returns, whatever the samples and the write order were (keys missing in a sample, keys named twice, arrays of any shape), the write order names an array in every sample, and the data file contains the bytes of all these arrays, complete and in this order, followed only by zeros, in a file of the size of all the data. Data that does not fit is never cut off silently.", "quantifier": "all samples, write orders, chunk numbers and previous directory contents", "why_tests_cant": "Quantifies over all buffers and write orders, also inconsistent ones; tests write well-formed buffers.", "anchors": ["logix/logging/mmap.py:MemoryMapHandler.write", "logix/logging/mmap.py:get_from_nested_dict"]}
{"id": "C157", "title": "The influence on a single logged sample is bounded by the self-influence of the query", "statement": "After a logging program with covariances of the gradients and finalize, take any query gradients as sources and a log with samples of the program as targets. Whatever the data, the queries and the positive damping are, the square of the influence of a query on a sample of the program is at most the number of logged samples times the number of watched modules times the self-influence of the query. Between two samples of the program the influence is, in absolute value, at most the number of samples times the number of modules.", "quantifier": "all programs, models, data, queries, pairs of samples, positive dampings", "why_tests_cant": "A bound over all data sets, queries and dampings; outliers that would exceed it are what tests miss. It fails if scores and self-influence use different Hessians or if the covariance is normalised wrongly.", "anchors": ["logix/analysis/influence_function.py:InfluenceFunction.compute_influence,compute_self_influence,precondition", "logix/analysis/influence_function_utils.py:precondition_raw", "logix/statistic/covariance.py:Covariance.update"]}
{"id": "C158", "title": "The metadata of a chunk write that returns describes every sample", "statement": "When MemoryMapHandler.write returns, whatever the samples and the write order were, the metadata file has exactly one entry for every sample, in the same order, with its id, the write order, the shapes of all arrays that the write order names in it, their number of elements, the dtype of the last of them, and, as offset, the number of bytes of these arrays in all samples before it.", "quantifier": "all samples, write orders, chunk numbers and previous directory contents", "why_tests_cant": "Quantifies over all buffers and write orders, also inconsistent ones; tests write well-formed buffers and read them back with the same code.", "anchors": ["logix/logging/mmap.py:MemoryMapHandler.write"]}
