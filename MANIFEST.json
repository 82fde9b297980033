{
 "claims": [
  {
   "property": "C01",
   "status": "proved",
   "theorems": [
    "Logix.C01_round_trip"
   ],
   "note": "One dtype per sample, at least one non-empty watched array, arrays of rank >= 1; see C78 for mixed dtypes."
  },
  {
   "property": "C02",
   "status": "proved",
   "theorems": [
    "Logix.C02_no_loss"
   ],
   "note": "Clean directory, num_workers <= 1, one dtype per batch, watched arrays present with rank >= 1 (GoodBatch)."
  },
  {
   "property": "C03",
   "status": "proved",
   "theorems": [
    "Logix.C03_threshold_independent"
   ],
   "note": "Clean directory, num_workers <= 1, one dtype per batch, watched arrays present with rank >= 1 (GoodBatch)."
  },
  {
   "property": "C04",
   "status": "proved",
   "theorems": [
    "Logix.C04_buffer_bounded",
    "Logix.C04_nonpositive_never_writes"
   ],
   "note": ""
  },
  {
   "property": "C05",
   "status": "proved",
   "theorems": [
    "Logix.C05_written_names",
    "Logix.C05_names_injective",
    "Logix.C05_chunk_names"
   ],
   "note": ""
  },
  {
   "property": "C06",
   "status": "proved",
   "theorems": [
    "Logix.C06_ranks"
   ],
   "note": "Clean directory, num_workers <= 1, one dtype per batch, watched arrays present with rank >= 1 (GoodBatch). Flushes of different ranks are atomic with respect to each other."
  },
  {
   "property": "C07",
   "status": "proved",
   "theorems": [
    "Logix.C07_ids_once",
    "Logix.C07_flushed_is_kept",
    "Logix.C07_buffered_is_replaced",
    "Logix.C07_record_again"
   ],
   "note": ""
  },
  {
   "property": "C08",
   "status": "partial",
   "theorems": [
    "Logix.C08_async_loses_everything_refuted",
    "Logix.C08_two_character_ids_unreadable",
    "Logix.C08_no_threshold_partial"
   ],
   "note": "The property is false for the code; C08_async_loses_everything_refuted proves its negation (every sample is lost). C08_no_threshold_partial: with a non-positive threshold nothing is lost for any number of workers."
  },
  {
   "property": "C09",
   "status": "proved",
   "theorems": [
    "Logix.C09_crash_keeps_completed",
    "Logix.SaverOp.run_eq_actions"
   ],
   "note": "Process stop, not power loss; any schedule of any ranks, any crash point including torn primitive effects."
  },
  {
   "property": "C10",
   "status": "partial",
   "theorems": [
    "Logix.C10_unreadable_after_crash_refuted",
    "Logix.crash_trichotomy",
    "Logix.C10_readable_between_writes_partial"
   ],
   "note": "The property is false for the code; C10_unreadable_after_crash_refuted proves its negation, crash_trichotomy shows that every crash point strictly inside a chunk write leaves the directory unreadable."
  },
  {
   "property": "C100",
   "status": "partial",
   "theorems": [
    "Logix.C100_refuted",
    "Logix.C100_overwrites",
    "Logix.C100_add_partial",
    "Logix.C100_other_partial",
    "Logix.C100_wrapped_partial"
   ],
   "note": "The property is false for the code; C100_refuted: initialize_from_log calls add_lora, whose save_lora overwrites the saved weights with fresh ones before they are read. C100_overwrites: on rank 0 the outcome does not depend on the contents of the file at all. Partial theorems: the weights are restored by add_lora(lora_path=...), by initialize_from_log with a lora_path other than the log directory, and for a model that has its LoRA layers already."
  },
  {
   "property": "C101",
   "status": "partial",
   "theorems": [
    "Logix.ExLoraCfg.C101_refuted",
    "Logix.C101_first_partial",
    "Logix.C101_later",
    "Logix.C101_ignored"
   ],
   "note": "The property is false for the code; C101_refuted proves its negation: the LoRA handler keeps the configuration of the first add_lora. C101_first_partial: it holds for the first call. C101_later: every later call goes by the configuration of the first. C101_ignored: in later calls lora_config only changes what finalize writes to config.yaml."
  },
  {
   "property": "C102",
   "status": "partial",
   "theorems": [
    "Logix.ExSess.C102_refuted",
    "Logix.C102_times_partial"
   ],
   "note": "The property is false for the code; C102_refuted proves its negation: every watch adds a hook. C102_times_partial: a module watched r+1 times logs r+1 times the sum of the per-sample gradients of its uses."
  },
  {
   "property": "C103",
   "status": "partial",
   "theorems": [
    "Logix.ExBatch.C103_refuted",
    "Logix.C103_tensor_partial",
    "Logix.C103_hugging_face",
    "Logix.C103_tuple",
    "Logix.C103_dict",
    "Logix.C103_lost",
    "Logix.C103_raises"
   ],
   "note": "The property is false for the code; C103_refuted proves its negation: with Lightning a batch of inputs and labels gets two ids, whatever its size. C103_hugging_face and C103_tensor_partial: it holds for Hugging Face and for batches that are one tensor. C103_tuple and C103_dict say what the ids are otherwise, C103_lost and C103_raises what that does to the stored log."
  },
  {
   "property": "C104",
   "status": "proved",
   "theorems": [
    "Logix.C104_ekfac",
    "Logix.C104_ekfac_self",
    "Logix.C104_simple",
    "Logix.C104_simple_self"
   ],
   "note": "Assumes of torch.linalg.eigh that it returns orthonormal eigenvectors (EighOk) and that these depend only on the entries of the matrix, not on the device (EighSame: the processes decompose equal matrices on their own devices). The processes log the same modules in the same order, as in C98."
  },
  {
   "property": "C105",
   "status": "proved",
   "theorems": [
    "Logix.C105_updates",
    "Logix.C105_forward",
    "Logix.C105_backward",
    "Logix.C105_grad"
   ],
   "note": "C105_updates: after any history, what every plugin receives for a module in a program of batches, with masks. C105_forward, C105_backward, C105_grad: means and covariances after finalize, for a newly configured run. The conditions that raw inputs and output gradients are not logged and that the module is watched once are needed: see C18, C25 and C102."
  },
  {
   "property": "C106",
   "status": "proved",
   "theorems": [
    "Logix.C106_kfac",
    "Logix.C106_kfac_self",
    "Logix.C106_raw",
    "Logix.C106_raw_self"
   ],
   "note": "Over ordered fields. C105 and C94 in one statement: from the program of the user to the scores. Assumes of eigh and inverse what C94 assumes."
  },
  {
   "property": "C107",
   "status": "partial",
   "theorems": [
    "Logix.C107_blocks_partial",
    "Logix.C107_ungrouped_partial",
    "Logix.ExConv.C107_refuted",
    "Logix.ExConv.C107_scores_refuted"
   ],
   "note": "The property is false for the code; compute_per_sample_gradient unfolds the input over all channels and pairs every output channel with all of them, so with G groups the logged gradient has G times too many entries, also for weights that do not exist (C107_refuted), and inner products of two samples can be wrong (C107_scores_refuted: 5 instead of 1). What holds: the entries of the own group are the true gradient (C107_blocks_partial), and without groups all is right (C107_ungrouped_partial)."
  },
  {
   "property": "C108",
   "status": "partial",
   "theorems": [
    "Logix.C108_paths",
    "Logix.C108_lora",
    "Logix.C108_linear_sizes",
    "Logix.C108_conv_sizes_partial",
    "Logix.ExConv.C108_conv_sizes_refuted"
   ],
   "note": "The property is false for the code; the gradient logged for a convolution with groups has more entries than path_dim says (C108_conv_sizes_refuted, see C107). All the rest is proved: names and sizes and that they are kept (C108_paths, C108_lora), linear layers (C108_linear_sizes), convolutions without groups (C108_conv_sizes_partial). initialize_from_log replaces model_module by the saved one and is not among the operations."
  },
  {
   "property": "C109",
   "status": "proved",
   "theorems": [
    "Logix.C109_shrinks"
   ],
   "note": "Over ordered fields, with what C94 assumes of eigh and inverse. Both computations start from the finalized state; after another damping was used on the same object the inverse is cached (C42, C54)."
  },
  {
   "property": "C11",
   "status": "proved",
   "theorems": [
    "Logix.C11_metadata_tiles",
    "Logix.C11_tiles_exactly"
   ],
   "note": ""
  },
  {
   "property": "C110",
   "status": "proved",
   "theorems": [
    "Logix.C110_cauchy_schwarz"
   ],
   "note": "Over ordered fields, with what C94 assumes of eigh and inverse."
  },
  {
   "property": "C111",
   "status": "proved",
   "theorems": [
    "Logix.C111_handed",
    "Logix.C111_samples"
   ],
   "note": "C111_handed needs no condition on when gradients arrive; C111_samples has the condition that they arrive only within batches (without it the claim is C86's and false), exact representation in the stored type, and ids that are all different."
  },
  {
   "property": "C112",
   "status": "proved",
   "theorems": [
    "Logix.C112_kfac",
    "Logix.C112_raw"
   ],
   "note": "Nested loading (flatten=False), mode dot, no groups, no masks. Relative to EighOk and InverseOk (the linear algebra library keeps its promises) and to exact numbers. If the call returns; C75 shows when it does."
  },
  {
   "property": "C113",
   "status": "partial",
   "theorems": [
    "Logix.ExInfl.C113_refuted",
    "Logix.C113_same_damping_partial",
    "Logix.C113_kfac_partial"
   ],
   "note": "The property is false for the code; C113_refuted shows the negation: with fitted eigenvalues (EKFAC) every call adds the damping once more, so later batches get other scores. Without fitted eigenvalues it holds when all computations use the same damping, and for hessian=\"kfac\" after computations with any damping. Exact numbers; conclusion for calls that return."
  },
  {
   "property": "C114",
   "status": "partial",
   "theorems": [
    "Logix.ExInfl.C114_refuted",
    "Logix.C114_hf_never",
    "Logix.C114_lightning_never",
    "Logix.C114_hf_partial",
    "Logix.C114_lightning_partial"
   ],
   "note": "The property is false for the code; C114_refuted shows the negation, and C114_hf_never, C114_lightning_never that it fails in every run: the methods return None, the callbacks drop what compute_self_influence returns, and self_influence_scores is never assigned. What does hold: the right scores are computed, each sample once (C114_hf_partial for schedules without EKFAC and data that ends with a step, C114_lightning_partial)."
  },
  {
   "property": "C115",
   "status": "proved",
   "theorems": [
    "Logix.C115_returns",
    "Logix.C115_scores",
    "Logix.C115_self",
    "Logix.C115_influence_returns",
    "Logix.C115_self_returns",
    "Logix.C115_all_returns"
   ],
   "note": "Exact numbers; the library functions are assumed to return for symmetric matrices (eigh) and for invertible ones (inverse), and to keep their promises (exists_lib shows by the spectral theorem that there are such functions over the real numbers). Without fitted eigenvalues (EKFAC). l2 and cosine with the source on a GPU raise, see C85. compute_influence_all without saving, or with nothing saved before."
  },
  {
   "property": "C116",
   "status": "partial",
   "theorems": [
    "Logix.ExTok.C116_refuted",
    "Logix.C116_hash",
    "Logix.C116_hash_partial",
    "Logix.C116_other_length",
    "Logix.C116_detokenize_partial",
    "Logix.C116_same_text"
   ],
   "note": "The property is false for the code; proved: exactly when two hash ids agree (the padded rows are equal), that hash ids identify sequences when all batches are padded to one length and sequences do not contain the padding token, that in batches of different lengths all hash ids differ, that decoded ids do not depend on batch and padding and agree exactly if the texts agree, and that sequences that differ in special tokens only share their decoded id. The hash is an arbitrary function without collisions, the tokenizer an arbitrary function that ignores special tokens; token ids below 2^63."
  },
  {
   "property": "C117",
   "status": "partial",
   "theorems": [
    "Logix.C117_hugging_face_partial",
    "Logix.C117_lightning_params_partial",
    "Logix.C117_lightning_partial",
    "Logix.ExTrain.C117_refuted",
    "Logix.ExTrain.C117_zeros_refuted"
   ],
   "note": "The property is false for Lightning, which runs the model in training mode (batch normalization changes its averages, logs depend on the rest of the batch); it holds for the Hugging Face trainer, for the parameters with Lightning, and with Lightning for models that are the same in both modes. Assumed: the loops of the two trainers, that Lightning puts the model in training mode, that optimizers leave models without gradients alone and zero_grad() sets gradients to None (PyTorch 2; with zeros weight decay would change parameters, C117_zeros_refuted)."
  },
  {
   "property": "C118",
   "status": "partial",
   "theorems": [
    "Logix.C118_self_partial",
    "Logix.C118_first_partial",
    "Logix.C118_drop_partial",
    "Logix.C118_plain_partial",
    "Logix.C118_raises",
    "Logix.ExInfl.C118_refuted"
   ],
   "note": "The property is false for the code; synchronize_device looks for the first entry of the target log in the preconditioned source log, which has gradients only, so with forward activations in the target log every preconditioned compute_influence raises (C118_raises, C118_refuted). Proved: self-influence depends on the gradients only; so does influence in every mode if the gradients come first in the target log, and without preconditioning if the source log is on one device and has the entries of the target log. Logs as dictionaries (not read with flatten=True)."
  },
  {
   "property": "C119",
   "status": "partial",
   "theorems": [
    "Logix.C119_influence_partial",
    "Logix.C119_self_partial",
    "Logix.C119_influence_raises",
    "Logix.C119_self_raises",
    "Logix.ExInfl.C119_refuted"
   ],
   "note": "The property is false for the code; synchronize_device moves all targets to one device, and scores of modules on different devices are added, so with source gradients on several devices every computation raises (C119_influence_raises, C119_self_raises). Proved: with the source log on one device, whichever, and the target log spread over any devices the result is the same. Modes l2 and cosine are C85. Module names are different."
  },
  {
   "property": "C12",
   "status": "proved",
   "theorems": [
    "Logix.C12_incomplete_rejected",
    "Logix.C12_flush_keeps_buffer"
   ],
   "note": ""
  },
  {
   "property": "C120",
   "status": "partial",
   "theorems": [
    "Logix.C120_values_partial",
    "Logix.C120_one_device_partial",
    "Logix.C120_later_partial",
    "Logix.ExInfl.C120_refuted"
   ],
   "note": "The property is false for the code; synchronize_device replaces the tensors in the caller's target log by copies on the device of the source. Proved: numbers, shapes, modules and types never change; nothing changes if both logs are on one device; later scores (mode dot, source log on one device) do not depend on the change. No line writes to the source log."
  },
  {
   "property": "C121",
   "status": "proved",
   "theorems": [
    "Logix.C121_influence",
    "Logix.C121_self",
    "Logix.C121_kfac",
    "Logix.C121_raw"
   ],
   "note": "Extends C94 and C106 to the modes l2 and cosine and to groups. For returning calls; sqrt is any function. EKFAC is C99."
  },
  {
   "property": "C122",
   "status": "proved",
   "theorems": [
    "Logix.C122_returns",
    "Logix.C122_kfac",
    "Logix.C122_raw",
    "Logix.C122_masked"
   ],
   "note": "For one process. The influence part assumes that eigh and inverse return and are correct. Programs without custom activations; statistics corrected_eigval and variance are not configured. C122_masked is the version with token masks (linear layers), for compute_influence in all modes with groups and compute_self_influence."
  },
  {
   "property": "C123",
   "status": "partial",
   "theorems": [
    "Logix.C123_refuted",
    "Logix.C123_forward_scaled",
    "Logix.C123_mean_scaled",
    "Logix.C123_backward_scaled",
    "Logix.C123_one_partial",
    "Logix.C123_grad_partial"
   ],
   "note": "The property is false for the code; C123_refuted proves its negation: without a mask the counters count samples, with a mask positions. The *_scaled theorems: with T positions per sample, mean and covariances of forward and backward without masks are T times those with masks of ones, in every history. C123_one_partial: no difference with one position per sample. C123_grad_partial: statistics of per-sample gradients never depend on masks."
  },
  {
   "property": "C124",
   "status": "proved",
   "theorems": [
    "Logix.C124_kfac",
    "Logix.C124_raw"
   ],
   "note": "For one process, nested loading (flatten=False), mode dot without groups; compute_influence_all without a saved result before, or with save=False. The influence part assumes that eigh and inverse return and are correct."
  },
  {
   "property": "C125",
   "status": "proved",
   "theorems": [
    "Logix.C125_forward",
    "Logix.C125_backward",
    "Logix.C125_scores"
   ],
   "note": "For linear layers and one process. Backward statistics need output gradients that are zero at the padding: C127 shows that the code does not mask them. The scores assume that eigh and inverse are correct."
  },
  {
   "property": "C126",
   "status": "proved",
   "theorems": [
    "Logix.C126_gradients",
    "Logix.C126_forward",
    "Logix.C126_backward",
    "Logix.C126_grad",
    "Logix.C126_scores",
    "Logix.C126_self"
   ],
   "note": "For linear layers and one process, in exact arithmetic. The scores assume that eigh and inverse are correct."
  },
  {
   "property": "C127",
   "status": "partial",
   "theorems": [
    "Logix.C127_refuted",
    "Logix.C127_covariance_partial",
    "Logix.C127_mean_partial"
   ],
   "note": "The property is false for the code; only the forward hook applies the mask, while the statistics divide by mask.sum(). What holds: the statistic is the sum over all positions over the number of the unmasked ones, and the average over the unmasked ones when the gradients at the masked positions are zero."
  },
  {
   "property": "C128",
   "status": "proved",
   "theorems": [
    "Logix.C128_returns",
    "Logix.C128_files",
    "Logix.C128_statistics",
    "Logix.C128_kfac",
    "Logix.C128_raw"
   ],
   "note": "The order of quantities is that of the nested dictionaries before finalize (`InStep`); C84 shows that it is needed. The files of different processes are modelled separately. The scores assume that eigh and inverse are correct and return."
  },
  {
   "property": "C129",
   "status": "proved",
   "theorems": [
    "Logix.C129_same_program",
    "Logix.C129_in_step",
    "Logix.C129_returns"
   ],
   "note": "Programs with finalize, clear or analyses in the middle are left out. With `C129_in_step` the other parts of C128 hold for such processes too."
  },
  {
   "property": "C13",
   "status": "proved",
   "theorems": [
    "Logix.C13_rows",
    "Logix.C13_rows_are_slices",
    "Logix.C13_too_few_rows"
   ],
   "note": ""
  },
  {
   "property": "C130",
   "status": "proved",
   "theorems": [
    "Logix.C130_kfac",
    "Logix.C130_raw"
   ],
   "note": "Real arithmetic without rounding, no masks (for masks see C123 and C125). The scores assume that eigh and inverse are correct and return."
  },
  {
   "property": "C131",
   "status": "proved",
   "theorems": [
    "Logix.C131_gradient",
    "Logix.C131_batch",
    "Logix.C131_stored"
   ],
   "note": "Exact arithmetic; the numbers that are stored have an exact representation in the stored format (`Storable`). The output gradients of the sample are assumed to be the same: a loss that averages over the batch makes them depend on the batch size. One process with at most one worker, as in C111."
  },
  {
   "property": "C132",
   "status": "proved",
   "theorems": [
    "Logix.C132_gradient",
    "Logix.C132_batch",
    "Logix.C132_stored"
   ],
   "note": "Exact arithmetic; the stored numbers have an exact representation. The output gradients of the layer are assumed to be those of the run without LoRA: C63 says that adding LoRA leaves outputs unchanged while the bottleneck is zero. Convolutions with dilation or groups are excluded: for them C63 and C64 are refuted."
  },
  {
   "property": "C133",
   "status": "proved",
   "theorems": [
    "Logix.C133_forward",
    "Logix.C133_backward",
    "Logix.C133_grad",
    "Logix.C133_kfac",
    "Logix.C133_raw"
   ],
   "note": "Exact arithmetic; eigendecomposition and inverse as in C106. As in C132 the output gradients of the layers are those without LoRA, and dilation and groups are excluded. One process, damping given."
  },
  {
   "property": "C134",
   "status": "proved",
   "theorems": [
    "Logix.C134_influence",
    "Logix.C134_self",
    "Logix.C134_positive",
    "Logix.C134_kfac",
    "Logix.C134_raw"
   ],
   "note": "Exact arithmetic; eigendecomposition and inverse as in C106. The mean eigenvalue is stated as the mean of the diagonal; eigen_trace is the equality. That all modules share the damping of the first one with KFAC is what the code does: the local variable damping is set once."
  },
  {
   "property": "C135",
   "status": "partial",
   "theorems": [
    "Logix.C135_influence_partial",
    "Logix.C135_self_partial",
    "Logix.ExInfl.C135_refuted"
   ],
   "note": "The property is false for the code; C135_refuted has two modules, KFAC and no damping: the damping is that of the first module of the log, and reversing the log changes the scores. The theorems prove it when the damping is given, or the Hessian is the empirical Fisher matrix, or the first module is the same, with a positive damping (given or default). Exact arithmetic; eigendecomposition and inverse as in C106."
  },
  {
   "property": "C136",
   "status": "proved",
   "theorems": [
    "Logix.C136_influence",
    "Logix.C136_self"
   ],
   "note": "Exact arithmetic; eigendecomposition and inverse as in C106. EKFAC is not included. A negative factor is included: all gradients change their sign."
  },
  {
   "property": "C137",
   "status": "proved",
   "theorems": [
    "Logix.C137_influence",
    "Logix.C137_self",
    "Logix.C137_kfac",
    "Logix.C137_raw"
   ],
   "note": "Exact arithmetic; eigendecomposition and inverse as in C106. EKFAC is not included. Batches for other plugins (mean, saving) may differ between the runs. C137_kfac and C137_raw start from programs, in any numbers of processes, as in C130 (mode dot, given damping)."
  },
  {
   "property": "C138",
   "status": "proved",
   "theorems": [
    "Logix.C138_ekfac",
    "Logix.C138_self"
   ],
   "note": "Programs without exception; one process; exact arithmetic; eigh returns orthonormal eigenvectors. The first program has no masks. First call of compute_influence after finalize, mode dot."
  },
  {
   "property": "C139",
   "status": "proved",
   "theorems": [
    "Logix.C139_statistics"
   ],
   "note": "initialize_from_log returns; one process; the loading run has no eigendecompositions, inverses or fitted eigenvalues (otherwise false, see C96)."
  },
  {
   "property": "C14",
   "status": "proved",
   "theorems": [
    "Logix.C14_loader_batches",
    "Logix.C14_loader_batches_flat"
   ],
   "note": "For every dataset that holds homogeneous samples and every positive batch size, nested and flat views. DataLoader worker processes are not modelled."
  },
  {
   "property": "C140",
   "status": "proved",
   "theorems": [
    "Logix.C140_influence",
    "Logix.C140_self"
   ],
   "note": "Both computations return; exact arithmetic; activations and output gradients without masks; hessian kfac, raw or auto without corrected eigenvalues."
  },
  {
   "property": "C141",
   "status": "partial",
   "theorems": [
    "Logix.C141_refuted",
    "Logix.C141_nested_partial",
    "Logix.C141_damaged_partial",
    "Logix.C141_flat_partial"
   ],
   "note": "The property is false for the code; C141_refuted: if a later sample of a batch lacks a module of the first one (watched modules were changed within a run), the tensor of that module silently has fewer rows than the batch has ids. C141_nested_partial: all samples, in order, each read under its id, in batches of the requested size. C141_damaged_partial: a sample that cannot be read makes the loop raise. C141_flat_partial: with flatten=True the full property holds (row i is the sample of the i-th id). Samples of different element types in one batch raise in the model (PyTorch promotes them)."
  },
  {
   "property": "C142",
   "status": "proved",
   "theorems": [
    "Logix.C142_all_calls",
    "Logix.C142_kfac",
    "Logix.C142_raw"
   ],
   "note": "One process logs; exact numbers; eigh and inverse return and are correct; end-to-end part in mode dot without groups, nested loading, no masks. The loading instance has no statistics of its own (see C96)."
  },
  {
   "property": "C143",
   "status": "proved",
   "theorems": [
    "Logix.C143_kfac",
    "Logix.C143_raw",
    "Logix.C143_returns_kfac",
    "Logix.C143_returns_raw"
   ],
   "note": "One process; exact numbers; nested loading; the source log lists the modules in the order in which they are watched; groups are all different and none is called total; no masks. In the modes l2 and cosine, that the call returns is shown for source logs on the CPU."
  },
  {
   "property": "C144",
   "status": "partial",
   "theorems": [
    "Logix.ExSess.C144_refuted",
    "Logix.C144_log_partial",
    "Logix.C144_stored_partial"
   ],
   "note": "The property is false for the code: a name that get_dtype does not list (for example half, double or int16) silently gives float32 (ExSess.C144_refuted). For float64, float32, float, float16 and int8 it holds for every program whose events are about tensors that exist (C144_log_partial), and for the arrays read back from the log directory under the conditions of C111 (C144_stored_partial). Left out: bfloat16, which NumPy does not have."
  },
  {
   "property": "C145",
   "status": "proved",
   "theorems": [
    "Logix.C145_limit",
    "Logix.C145_order"
   ],
   "note": "Exact numbers; mode dot without groups; each call starts from the finalized state (the cached inverses of an earlier damping are the subject of C42); no masks. Assumes EighOk and InverseOk (DESIGN)."
  },
  {
   "property": "C146",
   "status": "proved",
   "theorems": [
    "Logix.C146_leverage"
   ],
   "note": "Exact numbers; hessian raw or auto with covariances of the gradients; no masks; no groups. Assumes EighOk and InverseOk (DESIGN)."
  },
  {
   "property": "C147",
   "status": "partial",
   "theorems": [
    "Logix.ExLora.C147_refuted",
    "Logix.C147_wrapped_partial",
    "Logix.C147_filtered_partial"
   ],
   "note": "The property is false for the code; add_lora does not look whether a layer belongs to a LoRA layer. After the second call on a model with one layer seven modules are tracked (names that contain logix_lora_B), among them the encoder and decoder made for the bottleneck and the bottleneck itself, instead of one. Proved: without filters the parts of a LoRA layer get LoRA layers of their own; parts that the filters keep out stay as they are."
  },
  {
   "property": "C148",
   "status": "partial",
   "theorems": [
    "Logix.ExInfl.C148_refuted",
    "Logix.C148_dot_partial",
    "Logix.C148_self_partial",
    "Logix.C148_modes_partial"
   ],
   "note": "The property is false for the code; in the modes l2 and cosine the norms of the targets are always computed with preconditioning, so plain products are combined with preconditioned norms (a score with damping 1 is 1633/60, with damping 2 it is 4261/154, without statistics it is 15). Proved: the property for mode dot and for self-influence, and what the other modes give: the plain score minus half of the preconditioned self-influence of the target, or divided by its root. Nested logs."
  },
  {
   "property": "C149",
   "status": "partial",
   "theorems": [
    "Logix.ExInfl.C149_refuted",
    "Logix.C149_missing_partial",
    "Logix.C149_first_partial",
    "Logix.C149_ignored_partial"
   ],
   "note": "The property is false for the code; modules that only the target log has are ignored in mode dot, unless such a module comes first in the target log, where synchronize_device looks up the device; then it raises. In the modes l2 and cosine they count for the norm of the target only. Proved: a module that only the source log has makes it raise; a target log whose first module is not in the source log makes it raise; in mode dot the other modules of the target log have no effect. Nested logs."
  },
  {
   "property": "C15",
   "status": "proved",
   "theorems": [
    "Logix.C15_flat_matches_nested"
   ],
   "note": ""
  },
  {
   "property": "C150",
   "status": "proved",
   "theorems": [
    "Logix.C150_average"
   ],
   "note": "Hessian raw, or auto when covariances of the gradients were logged. Without masks. Relative to EighOk and InverseOk (the linear algebra library keeps its promises) and to exact numbers. If the call returns; C115 shows when it does."
  },
  {
   "property": "C151",
   "status": "proved",
   "theorems": [
    "Logix.C151_source",
    "Logix.C151_target"
   ],
   "note": "If both calls return. No hypothesis about the linear algebra library or the state. Exact numbers. The modes l2 and cosine are not linear in the targets."
  },
  {
   "property": "C152",
   "status": "proved",
   "theorems": [
    "Logix.C152_mean_square"
   ],
   "note": "Mode dot. Hessian raw, or auto when covariances of the gradients were logged. Without masks. Relative to EighOk and InverseOk (the linear algebra library keeps its promises) and to exact numbers. If the calls return; C115 shows when they do."
  },
  {
   "property": "C153",
   "status": "partial",
   "theorems": [
    "Logix.ExSess.C153_refuted",
    "Logix.C153_log_only_partial",
    "Logix.C153_setup_partial"
   ],
   "note": "The property is false for the code; eval only turns off saving: with covariance requested, one test batch after finalize and eval changes the self-influence of the same gradients (961/702 to 961/802; the outer product is even added to the finalized average). Proved: with only log requested, and so after setup({'grad': ['log']}) in every state, no test program changes the statistics, also when it raises."
  },
  {
   "property": "C154",
   "status": "proved",
   "theorems": [
    "Logix.C154_same",
    "Logix.C154_history"
   ],
   "note": "The operations inside are any but preparing or ending another with statement (these use the same flag). The sessions differ only in the flag of the last run(..., save=...), which start and end neither read nor write."
  },
  {
   "property": "C155",
   "status": "proved",
   "theorems": [
    "Logix.C155_all_opened",
    "Logix.C155_unknown_raises"
   ],
   "note": "Counts memory maps: for a foreign name that tells a chunk, the stripped name may denote another file, which is then opened in its place. For names written by LogIX see C05."
  },
  {
   "property": "C156",
   "status": "proved",
   "theorems": [
    "Logix.C156_complete"
   ],
   "note": "For arrays that are not exactly one byte long: NumPy broadcasts a single byte into a slice that was clipped to nothing."
  },
  {
   "property": "C157",
   "status": "proved",
   "theorems": [
    "Logix.C157_one_sample",
    "Logix.C157_pair"
   ],
   "note": "For the empirical Fisher matrix (hessian raw or auto with covariances of grad). Exact arithmetic."
  },
  {
   "property": "C158",
   "status": "proved",
   "theorems": [
    "Logix.C158_metadata"
   ],
   "note": "The entry has one dtype, that of the last array, for all arrays of the sample; what this means for reading is stated with the round-trip properties."
  },
  {
   "property": "C16",
   "status": "partial",
   "theorems": [
    "Logix.C16_first_partial",
    "Logix.C16_later_partial",
    "Logix.C16_later_loader_partial",
    "Logix.C16_samples_partial",
    "Logix.ExFront.C16_refuted",
    "Logix.ExFront.C16_flag_refuted"
   ],
   "note": "The property is false for the code; ExFront.C16_refuted proves its negation (a dataset built once is returned for ever, also after more samples were saved) and ExFront.C16_flag_refuted shows that the flag of later calls is ignored, so that a nested loader over a flat dataset cannot be iterated. Proved: the first request of a run is answered with the current directory and the requested flag, after any saves and finalizes (C16_first_partial, and with C02 the samples in it: C16_samples_partial); every later request returns the first answer, whatever happened since (C16_later_partial, C16_later_loader_partial)."
  },
  {
   "property": "C17",
   "status": "proved",
   "theorems": [
    "Logix.C17"
   ],
   "note": "For any two histories that end with the same watched modules and options; either interface; the run inside refers to its own tensors. Error-free runs (a statistic that raises depends on earlier batches)."
  },
  {
   "property": "C18",
   "status": "partial",
   "theorems": [
    "Logix.C18_partial",
    "Logix.C18_order_partial",
    "Logix.ExSess.C18_refuted"
   ],
   "note": "The property is false for the code when the inputs of the module are logged as well (the first input is overwritten in place by the sum of the inputs); ExSess.C18_refuted proves its negation. C18_partial: with forward and backward logging off, after any history, the logged gradient is the elementwise sum over all uses; C18_order_partial: independent of the order of uses and gradients."
  },
  {
   "property": "C19",
   "status": "proved",
   "theorems": [
    "Logix.C19_hooks",
    "Logix.C19_stable"
   ],
   "note": "Number of hooks on every module when a context is open equals the number of times watch selected it since the last clear."
  },
  {
   "property": "C20",
   "status": "partial",
   "theorems": [
    "Logix.C20_partial",
    "Logix.ExSess.C20_refuted"
   ],
   "note": "The property is false for the code: __exit__ and end leave the hooks on the model; ExSess.C20_refuted proves its negation. C20_partial: before the first context and after clear() running the model changes nothing."
  },
  {
   "property": "C21",
   "status": "proved",
   "theorems": [
    "Logix.C21_setup_normalises",
    "Logix.C21_setup_rejects",
    "Logix.C21_setup_forgets",
    "Logix.C21_request_reusable",
    "Logix.C21_request_rewritten"
   ],
   "note": "LogOption.setup and its helpers, every request."
  },
  {
   "property": "C22",
   "status": "partial",
   "theorems": [
    "Logix.C22_no_log_refuted",
    "Logix.C22_with_log_partial",
    "Logix.toPlugins_isGrad"
   ],
   "note": "The property is false for the code: setup never passes is_grad=True to _to_plugins, so log is not inserted and the gradient hook assertion fails; C22_no_log_refuted proves its negation for every such request; C22_with_log_partial proves what holds when log is named."
  },
  {
   "property": "C23",
   "status": "proved",
   "theorems": [
    "Logix.C23_saved",
    "Logix.C23_not_saved"
   ],
   "note": "Saved means the saver does what it does with the batch's current values (saveLog of Model/Saver.lean); not saved means directory and buffer are unchanged, also on exceptions."
  },
  {
   "property": "C24",
   "status": "proved",
   "theorems": [
    "Logix.C24_copy",
    "Logix.C24_live"
   ],
   "note": "For any state and any later history."
  },
  {
   "property": "C25",
   "status": "partial",
   "theorems": [
    "Logix.C25_once_partial",
    "Logix.C25_partial",
    "Logix.ExSess.C25_refuted"
   ],
   "note": "The property is false for the code: with log for forward or backward and a module used twice the first tensor is overwritten in place; ExSess.C25_refuted proves its negation. C25_once_partial: it holds for all histories in which no tensor of the user arrives to be logged under a name and log type that the log of the batch already has (SessionOnceExample has an instance with log for all types); C25_partial: in particular for all histories in which log is not configured for forward or backward."
  },
  {
   "property": "C26",
   "status": "partial",
   "theorems": [
    "Logix.C26_partial",
    "Logix.ExSess.C26_refuted"
   ],
   "note": "The property is false for the code: __exit__ does not look at the exception; ExSess.C26_refuted proves its negation. C26_partial: without saving and gradient statistics ending the batch changes nothing."
  },
  {
   "property": "C27",
   "status": "proved",
   "theorems": [
    "Logix.C27_linear_gradient",
    "Logix.C27_batch_gradient"
   ],
   "note": "Numbers from any commutative semiring (no rounding); the middle dimensions of input and output gradient agree (no broadcasting)."
  },
  {
   "property": "C28",
   "status": "proved",
   "theorems": [
    "Logix.C28_conv_gradient"
   ],
   "note": "Numbers from any commutative semiring; groups=1, zero padding given as numbers, at least one sample and output channel (PyTorch cannot infer -1 otherwise)."
  },
  {
   "property": "C29",
   "status": "partial",
   "theorems": [
    "Logix.C29_coordinates_partial",
    "Logix.C29_dilation_refuted",
    "Logix.GradExample.C29_witness_refuted"
   ],
   "note": "The property is false for the code: extract_patches ignores dilation. C29_dilation_refuted proves its negation for every stride-1 convolution dilated in its first dimension; C29_coordinates_partial proves it for dilation 1."
  },
  {
   "property": "C30",
   "status": "proved",
   "theorems": [
    "Logix.C30_mean",
    "Logix.C30_batching"
   ],
   "note": "For every list of updates by any plugins from a new state and finalize. Without masks (C32 treats masks). Convolution forward rows are the unfolded patches."
  },
  {
   "property": "C31",
   "status": "proved",
   "theorems": [
    "Logix.C31_covariance",
    "Logix.C31_batching"
   ],
   "note": "As C30, for the covariance."
  },
  {
   "property": "C32",
   "status": "proved",
   "theorems": [
    "Logix.C32_covariance",
    "Logix.C32_mean"
   ],
   "note": "Forward statistics with masks equal those of the kept rows only."
  },
  {
   "property": "C33",
   "status": "proved",
   "theorems": [
    "Logix.C33_psd"
   ],
   "note": "Covariance stays positive semidefinite over every sequence of state operations with nonnegative masks."
  },
  {
   "property": "C34",
   "status": "proved",
   "theorems": [
    "Logix.C34_mean",
    "Logix.C34_covariance",
    "Logix.C34_single"
   ],
   "note": "Mean and covariance, any number of processes, any split. Same order of registration is the hypothesis on Spec.order. EKFAC statistics in several processes are not covered."
  },
  {
   "property": "C35",
   "status": "partial",
   "theorems": [
    "Logix.C35_refuted",
    "Logix.C35_divides_again",
    "Logix.C35_covariance_partial"
   ],
   "note": "The property is false for the code; C35_refuted proves its negation, C35_divides_again says what a second finalize does, C35_covariance_partial what holds."
  },
  {
   "property": "C36",
   "status": "proved",
   "theorems": [
    "Logix.C36_ekfac",
    "Logix.C36_nonneg",
    "Logix.C36_batching"
   ],
   "note": "From every reachable state without eigendecomposition, for every later list of updates. The eigenvectors are those the state holds, whatever eigh returned."
  },
  {
   "property": "C37",
   "status": "partial",
   "theorems": [
    "Logix.C37_variance_refuted",
    "Logix.C37_corrected_eigval_refuted",
    "Logix.C37_plugins_run_partial",
    "Logix.C37_corrected_eigval_partial"
   ],
   "note": "The property is false for the code: variance raises on every batch after every history (C37_variance_refuted), and corrected_eigval raises on every batch once an influence computation made the eigendecomposition first (C37_corrected_eigval_refuted). log, mean, covariance and, in the documented order, corrected_eigval run on every well-shaped history."
  },
  {
   "property": "C38",
   "status": "partial",
   "theorems": [
    "Logix.C38_refuted",
    "Logix.C38_eigvec_stays_empty",
    "Logix.C38_clear_partial"
   ],
   "note": "The property is false for the code; C38_refuted proves its negation: clear() empties the eigenvectors but keeps the attribute, so corrected_eigval never recomputes them (C38_eigvec_stays_empty, for every history). C38_clear_partial: mean and covariance logged after clear() behave as in a new instance, including finalize, errors and the files saved."
  },
  {
   "property": "C39",
   "status": "proved",
   "theorems": [
    "Logix.C39_offload",
    "Logix.C39_files"
   ],
   "note": "For every sequence of operations on the state (updates by any plugin, finalize, clear, inverse, svd): offloading changes only devices. The eigendecomposition and inverse are assumed not to depend on the device (DeviceFree)."
  },
  {
   "property": "C40",
   "status": "proved",
   "theorems": [
    "Logix.C40_restored",
    "Logix.C40_restored_base"
   ],
   "note": "For every state and every loading instance; the content of the files is the value of the attribute (torch.save/torch.load round trip is trusted)."
  },
  {
   "property": "C41",
   "status": "partial",
   "theorems": [
    "Logix.C41_refuted"
   ],
   "note": "The property is false for the code: load_state restores neither the counters nor the sums, so the restored (already normalized) statistic is divided by the number of new rows only. C41_refuted proves it for every saved state, over any field."
  },
  {
   "property": "C42",
   "status": "partial",
   "theorems": [
    "Logix.C42_refuted",
    "Logix.C42_inverse_cached",
    "Logix.C42_svd_cached",
    "Logix.C42_first_inverse_partial",
    "Logix.C42_first_svd_partial"
   ],
   "note": "The property is false for the code; C42_refuted proves its negation. C42_inverse_cached and C42_svd_cached: after the first request every later one gets the same result whatever damping it passes and whatever was logged since, until clear(). C42_first_*_partial: the first request uses the current covariance and its own damping."
  },
  {
   "property": "C43",
   "status": "proved",
   "theorems": [
    "Logix.C43_kfac_solves",
    "Logix.C43_positive_damping"
   ],
   "note": "For every state reached by a run, every log of gradients and every set of modules. eigh is an abstract function that, when it returns, returns an orthonormal eigendecomposition of a symmetric matrix (Spec.EighOk). Eigendecompositions cached in the state must be those of its covariances (Spec.SvdFresh; C38 shows that they can be stale). With EKFAC eigenvalues the system is another one. C43_positive_damping needs no condition on eigenvalues. Field arithmetic, not floating point."
  },
  {
   "property": "C44",
   "status": "proved",
   "theorems": [
    "Logix.C44_raw_solves"
   ],
   "note": "Every run, log and damping for which the library returns inverses (Spec.InverseOk). Inverses cached in the state must belong to the covariances and the damping (Spec.InvFresh; C41 and C42 show that they can be stale). Field arithmetic."
  },
  {
   "property": "C45",
   "status": "proved",
   "theorems": [
    "Logix.C45_nothing",
    "Logix.C45_all"
   ],
   "note": "C45_nothing: state and log returned unchanged when a module has no covariance. C45_all: otherwise every module is solved with its own inverse or its own eigendecomposition."
  },
  {
   "property": "C46",
   "status": "proved",
   "theorems": [
    "Logix.C46_inner_product",
    "Logix.C46_linear_source",
    "Logix.C46_linear_target"
   ],
   "note": "Linearity is proved with preconditioning as well. The theorems speak about calls that return; logs have one gradient per id in every module."
  },
  {
   "property": "C47",
   "status": "proved",
   "theorems": [
    "Logix.C47_dot",
    "Logix.C47_modes"
   ],
   "note": "For every batching of at least one batch, when both calls succeed. The targets are given as dictionaries (not flattened). l2 and cosine: no fitted eigenvalues, same modules in source and target, and earlier influence computations with the same damping."
  },
  {
   "property": "C48",
   "status": "partial",
   "theorems": [
    "Logix.C48_shape",
    "Logix.C48_entry",
    "Logix.C48_entry_modes_partial",
    "Logix.C48_mismatch_partial",
    "Logix.ExInfl.C48_refuted"
   ],
   "note": "The property is false for the code; C48_refuted proves the negation of its last part: a module with a single row is broadcast instead of raising. The shape and ids are right for every call that returns; entries depend only on their two samples (l2 and cosine: without fitted eigenvalues); mismatched lengths raise if the modules of a log agree on the number of rows."
  },
  {
   "property": "C49",
   "status": "proved",
   "theorems": [
    "Logix.C49_diagonal",
    "Logix.C49_nonneg"
   ],
   "note": ""
  },
  {
   "property": "C50",
   "status": "proved",
   "theorems": [
    "Logix.C50_symmetric"
   ],
   "note": "For logs with the same modules in the same order. With eigendecompositions nothing is asked of them."
  },
  {
   "property": "C51",
   "status": "partial",
   "theorems": [
    "Logix.C51_distance_partial",
    "Logix.C51_identical_best_partial",
    "Logix.ExInfl.C51_refuted"
   ],
   "note": "The property is false for the code; C51_refuted proves its negation for states with fitted (EKFAC) eigenvalues, to which damping is added in place. Without them it is proved."
  },
  {
   "property": "C52",
   "status": "partial",
   "theorems": [
    "Logix.C52_scale",
    "Logix.C52_bound_partial",
    "Logix.ExInfl.C52_refuted"
   ],
   "note": "The property is false for the code; C52_refuted proves the negation of the bound for states with fitted (EKFAC) eigenvalues. Independence of scale is proved for all states; the bound without fitted eigenvalues."
  },
  {
   "property": "C53",
   "status": "partial",
   "theorems": [
    "Logix.C53_members_partial",
    "Logix.C53_modes_partial",
    "Logix.C53_self_partial",
    "Logix.C53_split_partial",
    "Logix.C53_empty_group_raises",
    "Logix.ExInfl.C53_refuted",
    "Logix.ExInfl.C53_empty_refuted"
   ],
   "note": "The property is false for the code; C53_refuted: a group named twice gets twice the sum. C53_empty_refuted: a group without modules makes the call raise. Proved for distinct groups other than 'total', whenever the call returns."
  },
  {
   "property": "C54",
   "status": "partial",
   "theorems": [
    "Logix.C54_same_damping_partial",
    "Logix.C54_kfac_partial",
    "Logix.ExInfl.C54_refuted",
    "Logix.ExInfl.C54_damping_refuted"
   ],
   "note": "The property is false for the code; C54_refuted (fitted eigenvalues are damped in place) and C54_damping_refuted (the cached inverse keeps its damping) prove its negation. Without fitted eigenvalues it is proved for equal dampings, and for hessian=kfac with any dampings."
  },
  {
   "property": "C55",
   "status": "partial",
   "theorems": [
    "Logix.C55_given_partial",
    "Logix.C55_own_partial",
    "Logix.ExInfl.C55_refuted"
   ],
   "note": "The property is false for the code; C55_refuted proves its negation: the default damping of the first module is used for all. With a given damping modules are independent; the first module is damped by a tenth of its own mean eigenvalue."
  },
  {
   "property": "C56",
   "status": "proved",
   "theorems": [
    "Logix.C56_saved"
   ],
   "note": "For every sequence of calls on a new object, with and without save, from any states. Results are those returned at the time of the call."
  },
  {
   "property": "C57",
   "status": "partial",
   "theorems": [
    "Logix.ExInfl.C57_refuted",
    "Logix.C57_unchanged_partial",
    "Logix.C57_first_partial"
   ],
   "note": "The property is false for the code; C57_refuted proves its negation: the first saved result shares its list of source ids (and its dictionary of groups) with the saved scores. C57_unchanged_partial: every other result never changes. C57_first_partial: the target ids and, without groups, the scores of the first one do not change."
  },
  {
   "property": "C58",
   "status": "proved",
   "theorems": [
    "Logix.C58_rejects",
    "Logix.C58_epochs"
   ],
   "note": ""
  },
  {
   "property": "C59",
   "status": "proved",
   "theorems": [
    "Logix.C59_lora"
   ],
   "note": ""
  },
  {
   "property": "C60",
   "status": "proved",
   "theorems": [
    "Logix.C60_save",
    "Logix.C60_logged"
   ],
   "note": ""
  },
  {
   "property": "C61",
   "status": "proved",
   "theorems": [
    "Logix.C61_valid_plugins"
   ],
   "note": ""
  },
  {
   "property": "C62",
   "status": "proved",
   "theorems": [
    "Logix.C62_extract_log",
    "Logix.C62_influence",
    "Logix.C62_min_epochs_exhausts"
   ],
   "note": "Lightning's own fit loop (max_epochs, min_epochs, should_stop) is an assumption written as extractLogLoop; C62_min_epochs_exhausts shows what happens when the user sets min_epochs above the schedule."
  },
  {
   "property": "C63",
   "status": "partial",
   "theorems": [
    "Logix.C63_partial",
    "Logix.ExLora.C63_refuted",
    "Logix.ExLora.C63_sharing_refuted"
   ],
   "note": "The property is false for the code; C63_refuted (dilated convolution: the encoder has no dilation and the model raises afterwards) and C63_sharing_refuted (layer smaller than the rank, with sharing) prove its negation. C63_partial proves it for every model without cycles, whatever the code of its containers and whatever the encoders and decoders, when the selected layers are not dilated and, with sharing, not smaller than the rank and of one kind within a group."
  },
  {
   "property": "C64",
   "status": "partial",
   "theorems": [
    "Logix.C64_linear_partial",
    "Logix.C64_conv_partial",
    "Logix.ExLora.C64_refuted",
    "Logix.linear_backward_exists",
    "Logix.pointwise_backward_exists"
   ],
   "note": "The property is false for dilated convolutions; C64_refuted proves its negation. C64_linear_partial proves it for all linear layers, any rank and any shape of the inputs between batch and feature dimension; C64_conv_partial for convolutions of any kernel, stride and padding without effective dilation. The gradient of the bottleneck's output is what autograd computes through the decoder (Spec.IsBackward)."
  },
  {
   "property": "C65",
   "status": "partial",
   "theorems": [
    "Logix.C65_partial",
    "Logix.C65_any_partial",
    "Logix.addLora_succeeds",
    "Logix.ExLora.C65_refuted",
    "Logix.ExLora.C65_conv1d_refuted"
   ],
   "note": "The property is false for the code; C65_refuted (a layer that occurs under two names is replaced under the first only) and C65_conv1d_refuted (Conv1d is listed as supported, add_lora raises) prove its negation. C65_partial proves it for every model in which every module has one name and whose root is not itself a leaf; C65_any_partial says what happens with shared modules; addLora_succeeds says when add_lora does not raise."
  },
  {
   "property": "C66",
   "status": "proved",
   "theorems": [
    "Logix.C66",
    "Logix.C66_rejects",
    "Logix.C66_assert",
    "Logix.C66_unshared"
   ],
   "note": "For every model without cycles whose root is not itself a leaf (then named_modules yields the root under the empty name). A module in no group or in more than one makes add_lora raise."
  },
  {
   "property": "C67",
   "status": "partial",
   "theorems": [
    "Logix.C67_partial",
    "Logix.C67_any_partial",
    "Logix.C67_succeeds",
    "Logix.ExWatch.C67_refuted",
    "Logix.ExWatch.C67_accumulate_refuted"
   ],
   "note": "The property is false for the code; ExWatch.C67_refuted and C67_accumulate_refuted prove its negation: a filter once given stays in effect for later calls without one (contrary to the documentation), and modules tracked by earlier calls stay tracked. C67_partial proves it for the first call of a session, for every model and filter; C67_any_partial says exactly what any later call tracks; C67_succeeds that the call raises nothing if something is selected."
  },
  {
   "property": "C68",
   "status": "partial",
   "theorems": [
    "Logix.C68_partial",
    "Logix.C68_exact_partial",
    "Logix.ExWatch.C68_refuted",
    "Logix.ExWatch.C68_sequence_refuted"
   ],
   "note": "The property is false for the code; ExWatch.C68_refuted proves its negation with tied embeddings (one parameter in a tracked and in an untracked leaf), ExWatch.C68_sequence_refuted with two calls that have different filters. C68_partial proves it for the first call and models in which no parameter belongs to two leaves; C68_exact_partial says exactly which parameters require gradients after any call."
  },
  {
   "property": "C69",
   "status": "proved",
   "theorems": [
    "Logix.C69_save_load"
   ],
   "note": "Every legal configuration (initConfig_legal shows construction yields legal ones), every key order of the YAML file; the YAML text format itself is assumed to round-trip."
  },
  {
   "property": "C70",
   "status": "proved",
   "theorems": [
    "Logix.C70_one_log_dir",
    "Logix.C70_project_wins"
   ],
   "note": ""
  },
  {
   "property": "C71",
   "status": "partial",
   "theorems": [
    "Logix.C71_saved_config_refuted",
    "Logix.C71_stripped_config_partial"
   ],
   "note": "The property is false for the code: log_dir is declared init=False but saved, so every saved configuration is rejected; C71_saved_config_refuted proves its negation; the partial theorem shows the file is accepted without the log_dir entries."
  },
  {
   "property": "C72",
   "status": "proved",
   "theorems": [
    "Logix.C72_index_ids",
    "Logix.C72_index_ids_unique"
   ],
   "note": ""
  },
  {
   "property": "C73",
   "status": "proved",
   "theorems": [
    "Logix.C73_hash_ids",
    "Logix.C73_hash_ids_eq_iff",
    "Logix.C73_rejects",
    "Logix.C73_rejects_mode"
   ],
   "note": "SHA-256 is a parameter; collision-freedom is a hypothesis of C73_hash_ids_eq_iff only."
  },
  {
   "property": "C74",
   "status": "proved",
   "theorems": [
    "Logix.C74_merge_logs",
    "Logix.C74_alignment"
   ],
   "note": ""
  },
  {
   "property": "C75",
   "status": "partial",
   "theorems": [
    "Logix.C75_nested_partial",
    "Logix.C75_modes_partial",
    "Logix.C75_flat_partial",
    "Logix.C75_flat_raises",
    "Logix.ExInfl.C75_refuted"
   ],
   "note": "The property is false for the code; C75_refuted proves its negation (C75_flat_raises: against a flat loader every call with a group, or in mode l2 or cosine, raises, whatever was logged). Proved, for every history of saved batches, flush threshold, directory listing, batch size and source: nested loading in mode dot with any groups gives the scores of the gradients in memory and returns (C75_nested_partial), in every mode the scores are equal if both calls return (C75_modes_partial), and flat loading in mode dot without groups gives them too (C75_flat_partial). Assumed: at most one worker (with more, C08 fails), a directory without older logs (C77), one element type whose numbers can be read back (C78), distinct ids, the state's paths are the write order."
  },
  {
   "property": "C76",
   "status": "proved",
   "theorems": [
    "Logix.C76_before_init",
    "Logix.C76_one_run",
    "Logix.C76_cases"
   ],
   "note": "LogIX itself is a parameter (constructor and methods)."
  },
  {
   "property": "C77",
   "status": "partial",
   "theorems": [
    "Logix.C77_stale_chunks_refuted",
    "Logix.C77_enough_chunks_partial"
   ],
   "note": "The property is false for the code; C77_stale_chunks_refuted proves its negation. It holds if the new session writes at least as many chunks (C77_enough_chunks_partial)."
  },
  {
   "property": "C78",
   "status": "partial",
   "theorems": [
    "Logix.C78_mixed_dtypes_refuted",
    "Logix.C01_round_trip"
   ],
   "note": "The property is false for the code; the theorem ..._refuted proves its negation in general. C01 is the part that holds (one dtype per sample)."
  },
  {
   "property": "C79",
   "status": "partial",
   "theorems": [
    "Logix.C79_add_analysis_refuted",
    "Logix.C79_forwarding_partial"
   ],
   "note": "The property is false for the code: add_analysis forwards to a method LogIX does not have; C79_add_analysis_refuted proves it always raises; all others are forwarded."
  },
  {
   "property": "C80",
   "status": "partial",
   "theorems": [
    "Logix.C80_live_logging_config_refuted",
    "Logix.Example.C80_witness_refuted",
    "Logix.C80_construction_partial"
   ],
   "note": "The property is false for the code: the logger copies the values when it is built; C80_live_logging_config_refuted shows no sequence of operations changes them."
  },
  {
   "property": "C81",
   "status": "partial",
   "theorems": [
    "Logix.C81_log_dir_refuted",
    "Logix.C81_log_dir_partial"
   ],
   "note": "The property is false for the code; C81_log_dir_refuted proves its negation (moved log directory)."
  },
  {
   "property": "C82",
   "status": "partial",
   "theorems": [
    "Logix.C82_refuted",
    "Logix.C82_covariance_scaled"
   ],
   "note": "The property is false for the code; C82_refuted proves its negation, C82_covariance_scaled gives the covariance that comes out in every such run."
  },
  {
   "property": "C83",
   "status": "partial",
   "theorems": [
    "Logix.C83_ekfac_refuted",
    "Logix.C83_like_new_partial"
   ],
   "note": "The property is false for the code: eigenvectors survive load and clear as an empty attribute, and corrected_eigval never recovers (C83_ekfac_refuted). C83_like_new_partial: mean and covariance behave as in a new instance."
  },
  {
   "property": "C84",
   "status": "partial",
   "theorems": [
    "Logix.C84_order_refuted"
   ],
   "note": "The property is false for the code; C84_order_refuted proves its negation. What holds when the orders agree is C34."
  },
  {
   "property": "C85",
   "status": "partial",
   "theorems": [
    "Logix.C85_gpu_raises",
    "Logix.ExInfl.C85_refuted"
   ],
   "note": "The property is false for the code; C85_refuted proves its negation and C85_gpu_raises proves that every such call on GPU gradients raises."
  },
  {
   "property": "C86",
   "status": "partial",
   "theorems": [
    "Logix.C86_partial",
    "Logix.C86_samples_partial",
    "Logix.ExSess.C86_refuted"
   ],
   "note": "The property is false for the code; ExSess.C86_refuted proves its negation: __exit__ leaves the hooks in place, so a model run outside any batch adds in place to the logged gradients, of which the save buffer still has views. C86_partial: for every session in which gradients arrive only within batches (and log is not configured for forward or backward, and no end of a batch raises), the directory after finalize is that of a saver which got the log of every saved batch as it was when the batch ended; C86_samples_partial: the dataset read from it has for every saved id the rows of these gradients. Missing: gradients arriving after the end of a batch, where it is false."
  },
  {
   "property": "C87",
   "status": "proved",
   "theorems": [
    "Logix.C87_pca",
    "Logix.C87_directions",
    "Logix.C87_logged",
    "Logix.C87_fallback"
   ],
   "note": "torch.linalg.svd is a parameter; Spec.SvdOk is what is assumed of it. The covariances must have the sizes of the layer. C87_logged is for logs without masks. PcaExample.lean has an instance."
  },
  {
   "property": "C88",
   "status": "proved",
   "theorems": [
    "Logix.C88_linear",
    "Logix.C88_conv",
    "Logix.C88_inner_product",
    "Logix.C88_contracts",
    "Logix.C88_scores"
   ],
   "note": "Over an ordered field; a subspace of r dimensions is given by r orthonormal vectors, which over the reals is no restriction. C88_inner_product is the statement for one layer, C88_scores that for influence scores without preconditioner, where the target samples are the logged ones."
  },
  {
   "property": "C89",
   "status": "proved",
   "theorems": [
    "Logix.C89_dot",
    "Logix.C89_modes"
   ],
   "note": "When the loop and the single call succeed, for non-empty lists of batches given as dictionaries (not flattened) and an object that has saved nothing before. No fitted eigenvalues; earlier influence computations use the same damping. l2 and cosine: with preconditioning and the same modules in source and target."
  },
  {
   "property": "C90",
   "status": "proved",
   "theorems": [
    "Logix.C90_accumulation"
   ],
   "note": "When the run and the single call succeed; the targets of the loader are dictionaries (not flattened), nothing was saved before. All logs have the same modules. No fitted eigenvalues; earlier influence computations use the same damping. Which micro-batches are followed by a step is arbitrary (decided by the trainer)."
  },
  {
   "property": "C91",
   "status": "partial",
   "theorems": [
    "Logix.C91_extract_log_partial",
    "Logix.C91_again",
    "Logix.C91_passes",
    "Logix.C91_influence_partial",
    "Logix.C91_scores_partial",
    "Logix.ExInfl.C91_refuted"
   ],
   "note": "The property is false for the code; C91_refuted proves its negation: with hessian=\"ekfac\" influence() makes two passes, so every sample is scored twice, and a second extract_log raises StopIteration. The first extract_log runs the scheduled epochs; for the other Hessians influence() makes one pass and saves every sample once. The epoch loop of the Hugging Face trainer is an assumption of the model."
  },
  {
   "property": "C92",
   "status": "partial",
   "theorems": [
    "Logix.C92_sum_partial",
    "Logix.C92_factor",
    "Logix.C92_refuted"
   ],
   "note": "The property is false for the code; C92_refuted proves its negation for causal language models (labels are shifted in the model but not in the scale) and for gradient accumulation. It holds for models without shift and one accumulation step. How the models reduce their loss and that accelerate divides by the number of accumulation steps are assumptions of the model."
  },
  {
   "property": "C93",
   "status": "proved",
   "theorems": [
    "Logix.C93_logged",
    "Logix.C93_logged_self",
    "Logix.C93_covariances",
    "Logix.C93_covariances_self"
   ],
   "note": "Over ordered fields. C93_covariances is the version for any two reachable states with equal covariances."
  },
  {
   "property": "C94",
   "status": "proved",
   "theorems": [
    "Logix.C94_influence",
    "Logix.C94_self"
   ],
   "note": "Over ordered fields. Covariances from logged rows to scores in one statement; existence of the solutions is part of it."
  },
  {
   "property": "C95",
   "status": "proved",
   "theorems": [
    "Logix.C95_restored_scores"
   ],
   "note": "For all sequences of calls, as lists of answers; errors are equal as well."
  },
  {
   "property": "C96",
   "status": "partial",
   "theorems": [
    "Logix.ExInfl.C96_refuted",
    "Logix.C96_no_cache_partial"
   ],
   "note": "The property is false for the code; C96_refuted proves its negation: an instance that has already computed eigendecompositions keeps them when it loads statistics saved without any. C96_no_cache_partial: it holds if the loading instance has no eigendecompositions, inverses or fitted eigenvalues, whatever it has logged and finalized."
  },
  {
   "property": "C97",
   "status": "partial",
   "theorems": [
    "Logix.ExInfl.C97_refuted",
    "Logix.C97_first_partial",
    "Logix.C97_passes_partial"
   ],
   "note": "The property is false for the code; C97_refuted proves its negation: the scores are never reset, so a second call also returns the samples of the first one. C97_first_partial: it holds for the first call, if the epoch limits do not ask for more than one pass. C97_passes_partial: whatever the limits, the first call makes exactly the passes they ask for and returns every sample that many times (so with min_epochs beyond the next epoch, samples are repeated)."
  },
  {
   "property": "C98",
   "status": "proved",
   "theorems": [
    "Logix.C98_same_state",
    "Logix.C98_finalized",
    "Logix.C98_scores",
    "Logix.C98_scores_self",
    "Logix.C98_formula"
   ],
   "note": "C98_same_state: whole-state equality for any cluster of processes, with success of finalize; C98_scores compares any process of any two distributed runs with the same data; C98_formula is C94 on every process. EKFAC (second phase) is not part of the property."
  },
  {
   "property": "C99",
   "status": "proved",
   "theorems": [
    "Logix.C99_ekfac",
    "Logix.C99_ekfac_self",
    "Logix.C99_simple",
    "Logix.C99_simple_self"
   ],
   "note": ""
  }
 ]
}