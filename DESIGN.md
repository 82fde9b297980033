# Formal model of logix (Lean 4): design

This directory holds a Lean 4 model of `logix-project/logix` (source read in `/repo`, never run) and machine-checked
proofs of the properties in `properties.jsonl`.

## Trusted base

* Lean 4.33.0's kernel. No `sorry`, no `admit`, no own `axiom`, no `native_decide`, no `bv_decide`.
* Axioms a theorem may depend on: `propext`, `Classical.choice`, `Quot.sound` (Mathlib uses them). Nothing else.
* The reading of the Python source: every definition in `lean/Verif/Model/` cites the file and lines it models. The theorems
  are about the model; nothing was executed.

### What is abstracted in the model

* Floating point: numbers are elements of an arbitrary field (ordered, or the reals, where needed). Rounding,
  overflow, NaN and dtype conversion error are not modelled.
* `torch.linalg.eigh` and `torch.linalg.svd`: parameters; their defining equations are hypotheses where they are used.
  `torch.inverse`: the matrix inverse, raising on a singular matrix.
* JSON, pickle (`torch.save`) and YAML: the value stored is the value read back for representable values; a value JSON
  cannot encode raises and leaves a truncated file. Their text formats are not modelled.
* The file system: a finite map from file names to contents, each primitive write atomic; `np.memmap` writes are visible to later
  opens. Torn pages, reordering by the OS after power loss and disk-full are not modelled.
* PyTorch's hook dispatch: a forward event fires the hooks installed on the module, a backward event fires the tensor
  hooks alive on that output and the module backward hooks captured at forward time.
  In detail (Model/Session): `register_hook` raises RuntimeError on a tensor that does not require a gradient; full backward hooks are the ones
  present when the call began; `copy.deepcopy` of a tensor that is not a leaf raises RuntimeError; `.numpy()` of a CPU tensor shares its
  memory; `+=` on a tensor changes it in place. Autograd's version counters (an error when a tensor saved for backward was changed in place)
  are not modelled.
* Devices (CPU/GPU), threads other than the flush worker, performance, and logging to the console.

## How the model is organised

* `Verif/Py/*`: Python's errors as values, insertion-ordered dictionaries, strings.
* `Verif/Model/*`: the code, function by function.
* `Verif/Spec/*`: small specifications used to state properties, independent of the model's helpers.
* `Verif/Lemmas/*`: helper lemmas.
* `Verif/Props/*`: the property theorems, named after the property id, with non-vacuity examples beside them.

A property of the code that turns out false is kept in full in `properties.jsonl`; the theorem `..._refuted` proves its negation
on the model, and `..._partial` proves the part that holds.

## What is modelled, file by file

| Model file | Code | Left out or simplified |
|---|---|---|
| Model/Storage, Names, Crash, Saver, Collate, Nested | logging/mmap.py, log_saver.py, log_loader.py, log_loader_utils.py | the bytes of one number are a codec parameter; thread scheduling of the flush worker beyond what C08 needs |
| Model/Option, Scheduler, Lightning, LightningInfluence, SelfInfluence, Singleton, Config, DataId, MergeLogs | logging/option.py, scheduler.py, lightning/callback.py and patch.py (with the mode "self_influence" of both integrations), logix `__init__.py`, config.py, utils.py (`DataIDGenerator`, `merge_logs`) | hashing is a function parameter |
| Model/HuggingFace | huggingface/callback.py, patch.py:97-111, 156-203, utils.py `merge_log_dict`, `merge_logs` on tensors | the training loop of `transformers`, the reduction of the loss in its models and the division by the number of accumulation steps in `accelerate` are assumptions; micro-batches are given by what `get_log(copy=True)` returns after them; the dummy optimizer is not modelled |
| Model/Tensor, Grad | `compute_per_sample_gradient`, `make_2d`, `unfold` as used there | tensors are a device, a shape and a list of numbers; strides and dtypes are not modelled |
| Model/Stats | statistic/*.py: Log, Mean, Variance, Covariance, CorrectedEigval | a module is a layer type with the geometry the code reads; an average over no rows (no samples, or masks without tokens) is 0 in the model and nan in torch |
| Model/State | state.py: registration, finalize, clear, `get_covariance_state`, svd and inverse caches, save and load | `eigh` and `inverse` are parameters (`Spec.EighOk`, `Spec.InverseOk` state what is assumed of them; that a library with these exists is shown by the concrete `lib` of Props/InflExample) |
| Model/Dist | `synchronize` over W processes | `all_reduce` matches the k-th call of every process; a mismatch of shapes is an error, in reality it can hang |
| Model/Influence | analysis/influence_function.py:45-240, influence_function_utils.py:25-99, utils.py `flatten_log`, `synchronize_device` | division by zero is 0 in the model and inf or nan in torch; `torch.sqrt` is a parameter (`Spec.SqrtAt`); broadcasting between eigenvalues and gradients of other shapes is an error; that `synchronize_device` moves the caller's tensors is not modelled |
| Model/BatchIds | lightning/callback.py:57-61, huggingface/patch.py:192-199 | batches are a tensor, a sequence of tensors or a dictionary of tensors; `data_id="detokenize"` is not modelled |
| Model/InfluenceAll | analysis/influence_function.py:32-43, 242-283, influence_function_utils.py:102-127 | a loader is the list of its batches; states after exceptions are not modelled |
| Model/Session | logging/logger.py, logix.py:232-378, 546-572, batch_info.py, statistic/log.py, logging/log_saver.py on one process, with the statistics of Model/State | tensors live in two heaps, the user's and logix's own, so that sharing is visible; the user's model is an arbitrary list of allocations, module calls and arriving gradients; what an exception leaves in the statistics is a parameter |
| Model/Modules | logix.py:101-148 (`watch`), lora/lora.py:41-102, lora/modules.py, lora/utils.py:20-58, utils.py:106-156 (`module_check`, `get_rank`), torch's `named_modules`, `Linear`, `Conv2d` | the model is a heap of modules and parameters, containers run arbitrary code that calls their submodules; the random initialisation and `torch.linalg.svd` are parameters (`Spec.SvdOk` states what is assumed of the latter); `copy_` of matrices with broadcasting; `view` of the singular vectors as of contiguous tensors (they are column-major, so that `U[:, :k].T` is contiguous); `padding_mode` other than zeros is not modelled |
| Model/LoraIO | logix.py:164-230 (`add_lora`), 475-487 (`save_lora`), 494-520 (`initialize_from_log`), 522-535 (`finalize`), 558-563 (`clear`), torch's `state_dict` and `load_state_dict(strict=False)` | one process; of a log directory the LoRA file, the LoRA part of the configuration, and the states; buffers of modules, and a directory `lora` without its file, are not modelled; `torch.load` returns what `torch.save` was given |
| Model/Frontend | logix.py:91-92, 315-363 (`build_log_dataset`, `build_log_dataloader`), the loader's choice of collate function | the data files are read when the dataset is opened instead of being mapped; worker processes, pinned memory and shuffling are not modelled |
| Model/Codec | what connects logs of tensors with stored arrays: utils.py:67-78 (`to_numpy`), log_loader_utils.py:121-136, influence_function.py:267-278 | how a number is written is a parameter (`Codec`), with the assumption that the numbers which occur can be read back; all logs of a run have one element type |

## Where the code does not do what one would expect

Found while proving; each is a theorem `..._refuted` or a part of a theorem.

* The variance statistic is never registered with the state and raises on its first batch (C37).
* `finalize` twice divides twice (C35); after `initialize_from_log` every later `finalize` raises (C41); `clear()` keeps derived Hessians (C38, C42, C83).
* Masks that do not match the activations change the divisor (C82).
* `synchronize` pairs tensors by the order in which a process met its modules (C84).
* The inverse is cached with the first damping (C42, C54); fitted eigenvalues are damped in place (C54); the default damping of the first module is used for all (C55).
* l2 and cosine raise for gradients on a GPU, because the norms are on the CPU (C85); a single row is broadcast (C48); repeated groups count twice and empty ones raise (C53).
* The first saved influence result shares its lists with the saved scores (C57).
* Asynchronous flushing loses data (C08), stale chunks are read as part of a new session (C77), mixed dtypes are read back wrongly (C78), and a crash during a flush can leave the directory unreadable (C10).
* Hooks stay after a context: what runs outside is added to the last log (C20); a batch whose body raised is saved all the same (C26).
* Forward and backward logging of a module that is used twice overwrites a tensor of the user's model (C25), and with it the gradients (C18).
* A run of the model after a saved batch changes what will be stored for that batch, until the buffer is flushed (C86).
* Against a flat loader every call with influence groups, or in mode l2 or cosine, raises (C75).
* `build_log_dataset` and `build_log_dataloader` return the first answer for ever, whatever was saved since and whatever flag is asked for (C16).
* Filters given to `watch` stay for later calls, tracked modules accumulate, and `requires_grad` is never switched on again (C67, C68).
* With `hessian="ekfac"`, `influence()` of the Hugging Face trainer scores every sample twice; a second `extract_log()` raises StopIteration (C91); gradients of causal language models are scaled by a factor that depends on the batch (C92); `self_influence()` of both integrations computes the scores and drops them (C114).
* `initialize_from_log` overwrites the saved LoRA weights with freshly initialised ones before it reads them (C100).
* The first `add_lora` fixes rank, sharing and groups for all later ones, whatever `lora_config` they are given; `config.yaml` gets the last one (C101).
* Each `watch` adds another hook: a module watched twice logs twice its gradient (C102).
* With Lightning's default ids a batch of inputs and labels gets two ids; all samples but two are not stored (C103).
* A saved configuration cannot be used for a new run (C71, C80, C81).
* `add_lora` replaces a layer with two names under the first name only, raises for Conv1d (C65), drops the dilation of convolutions (C63, C64), and with parameter sharing builds layers that raise when the rank exceeds a layer's size (C63).

## Plan per property

* **C01** Chunk write/read round trip (model: Storage). Byte-level model of write (offsets, metadata) and of LogDataset; prove getItem (write es) = es by induction over entries and paths.
* **C02** No saved sample is lost or invented over a whole logging session (model: Saver). Saver as a state machine over a file-system map; invariant: (chunks on disk read in order) ++ buffer = history; induct over operations.
* **C03** The stored dataset does not depend on the flush threshold (model: Saver). Corollary of C02: both datasets equal the same history.
* **C04** The in-memory log buffer is bounded by the flush threshold (model: Saver). Invariant bufferSize = number of buffered elements, and <= threshold after each save, by induction over operations.
* **C05** Chunk files are found again under exactly the names they were written with, in numeric order (model: Names). File names as character lists; prove strip/rstrip recover the key for all decimal numerals, injectivity, and that the numeric sort is the one used.
* **C06** Logs of different ranks never overwrite one another and are read back together (model: Saver). W saver machines over one shared file system, arbitrary interleaving; commutation by disjointness of names; dataset = concatenation by rank.
* **C07** What happens when the same data id is logged more than once (model: Saver). Dictionary lemmas lifted to histories with repeated ids.
* **C08** No saved sample is lost when background flushing is enabled (model: Saver). The property is false: prove that for every history an asynchronous flush writes no readable chunk and drops the whole buffer; concrete witness. Partial theorem for num_workers <= 1 is C02.
* **C09** A crash during a flush never damages chunks that were already completed (model: Crash). Write as a list of primitive file-system actions; theorem for every prefix of the list.
* **C10** After a crash during a flush the completed chunks are still readable (model: Crash). False between the creation of the data file and the end of the metadata write: witness for every history; partial theorem for the other crash points.
* **C11** Chunk metadata tiles the data file (model: Storage). Induction over entries on the metadata produced.
* **C12** A sample whose log lacks a watched module is rejected, not silently misaligned (model: Storage/Saver). Error branch of write: characterise exactly when it raises, and that the saver state and metadata files are unchanged.
* **C13** Rows are stored under the id of the same position (model: Saver). Spec: buffer lookup of (id_i, path) = row i of the tensor at path.
* **C14** Log batches served by the data loader keep order and alignment (model: Collate). Model of collate and of sequential batching; induct over the batch list.
* **C15** Flattened and nested views of a stored sample agree (model: Storage). Same state as C01; flat item = concatenation of the bytes of the nested arrays in write order.
* **C16** build_log_dataset reflects what is on disk when it is called (model: Frontend). False (cached): witness history; partial: first call.
* **C17** A batch's log contains nothing from earlier batches (model: Session). State machine over front-end operations with model-run events; two-run (non-interference) theorem: states that differ in earlier history give equal logs.
* **C18** Gradients of a module used several times are summed (model: Session). False if inputs are logged as well (witness); otherwise by induction over the run.
* **C19** Hooks do not pile up over repeated batches (model: Session). Invariant: installed hooks = modules_to_hook after each enter.
* **C20** Nothing is logged outside a batch context (model: Session). False: witness (hooks stay after exit); partial: outside runs do not reach the next batch's log nor the saved data.
* **C21** setup normalises plugin lists (model: Option). Spec by filter of the fixed plugin order; prove for all requests.
* **C22** Gradient plugins can be requested without naming log (model: Option/Session). False: for every such request the gradient hook raises AssertionError; partial: with log present it does not.
* **C23** A batch is saved exactly when saving was requested for it (model: Session). Induct over histories; spec as a function of the last call/save flags.
* **C24** get_log(copy=True) is a snapshot (model: Heap). Front-end model with object references for log dictionaries; frame theorem.
* **C25** Logging does not change the tensors of the user's model (model: Heap). Front-end model with tensor references; false for forward/backward log with reuse (witness), proved for other configurations and for histories without reuse within a batch (Props/SessionOnce).
* **C26** A batch whose body raised is not saved (model: Session). False: witness; partial theorem on what is saved.
* **C27** Per-sample gradients of linear layers are the true gradients (model: Grad). Tensors over a commutative ring; adjoint characterisation.
* **C28** Per-sample gradients of 2-d convolutions are the true gradients (model: Grad). Unfold model with integer geometry; adjoint to a directly defined convolution.
* **C29** Convolution covariances use the same coordinates as convolution gradients (model: Grad). Equality of the two unfold models when dilation = 1; witness of failure for dilation 2.
* **C30** The mean statistic is the exact average (model: Stats). Fold of update over batches, then normalize; equality with sum/number.
* **C31** The covariance statistic is the exact average outer product (model: Stats). Same, with outer products.
* **C32** Masked positions are ignored in forward statistics (model: Stats). Masked rows, counter = number of ones.
* **C33** Covariances are symmetric positive semidefinite at all times (model: Stats). Invariant PosSemidef over an ordered field / reals.
* **C34** Distributed statistics equal single-process statistics (model: Dist). W states, all-reduce matched by visiting order, sum then divide = pooled average.
* **C35** finalize can be called again (model: Stats). False: general formula for second finalize and witness; partial for count 1.
* **C36** EKFAC corrected eigenvalues are averages of squared rotated gradients (model: Stats). Fold; average of squares; nonnegativity.
* **C37** Every plugin that setup accepts can run (model: Stats). False for variance: raises on every batch; the other four proved to run.
* **C38** clear() makes later statistics independent of earlier logging (model: Stats/Session). clear(s) equal to fresh state on everything later observable (partial: derived Hessian states are excluded; witness).
* **C39** cpu_offload does not change results (model: Stats). Equality of the two branches with a device-tagged tensor model.
* **C40** Saved statistics are restored exactly (model: State). Save map / load map round trip for all states.
* **C41** Logging can be resumed from a restored state (model: State). False: every later finalize raises TypeError; witness and general theorem.
* **C42** The Hessian used for preconditioning is the current one, with the requested damping (model: State). False (cached with first damping; empty after clear): witnesses; partial: first call.
* **C43** KFAC preconditioning solves the damped Kronecker system (model: Influence/Matrix). Mathlib matrices over a field; eigh as a parameter with its defining equations as hypotheses (instantiated over the reals by the spectral theorem).
* **C44** Raw preconditioning solves the damped covariance system (model: Influence/Matrix). Mathlib matrix inverse.
* **C45** Preconditioning is all or nothing (model: Influence). Decision logic.
* **C46** Influence is the inner product over all modules (model: Influence). List-based tensors; equality with dot of concatenations; bilinearity.
* **C47** compute_influence_all does not depend on the loader's batch size (model: Influence). Induct over loader batches.
* **C48** Scores are labelled by the right ids (model: Influence). Shape invariants of results.
* **C49** Self-influence is the diagonal of influence and is not negative (model: Influence/Matrix). Diagonal identity; quadratic form of the inverse of a positive definite matrix.
* **C50** Preconditioned influence is symmetric (model: Influence/Matrix). Symmetry of the inverse.
* **C51** l2 mode ranks by Hessian distance (model: Influence/Matrix). Completing the square.
* **C52** cosine mode ignores the scale of the target gradient (model: Influence/Matrix). Homogeneity and Cauchy-Schwarz.
* **C53** Group influence sums exactly the modules of the group (model: Influence). Fold over modules with groups; error when a group matches nothing; double counting for repeated groups.
* **C54** Influence computations are repeatable (model: Influence). False for EKFAC eigenvalues (in-place +=): witness and general formula; proved for KFAC and raw.
* **C55** Default damping is chosen per module (model: Influence). False (damping leaks from the first module): general formula and witness; partial for one module or explicit damping.
* **C56** Saved influence scores collect all source batches (model: Influence). Induct over source batches.
* **C57** Returned influence results do not change later (model: Heap). False: witness with shared list; partial: copies.
* **C58** The scheduler runs the documented number of epochs and then stops (model: Scheduler). Iterator state machine; all configurations and any number of next calls.
* **C59** The scheduler adds LoRA exactly once and at the right time (model: Scheduler). Trace of calls made on LogIX.
* **C60** The scheduler turns on saving only for the last epoch (model: Scheduler). Trace of calls made on LogIX.
* **C61** Scheduled plugin lists are valid for the hooks (model: Scheduler/Option). All configurations through setup.
* **C62** The Lightning integration runs exactly the scheduled epochs (model: Lightning). Driver loop of the trainer modelled as: start hook, body, end hook, stop flag.
* **C63** Adding LoRA does not change the model's outputs (model: Lora). Matrices over a ring; zero bottleneck.
* **C64** The LoRA gradient is the projected full gradient (model: Lora). Matrix identity with sums over positions.
* **C65** add_lora wraps exactly the selected layers (model: ModTree). Module trees, named_modules pre-order, setattr; exact characterisation.
* **C66** Parameter sharing assigns one bottleneck per group (model: ModTree). Fold with a dictionary of shared modules.
* **C67** watch selects exactly the modules the filters describe (model: ModTree). Filter specification.
* **C68** watch enables gradients for what it tracks and disables them for the rest (model: ModTree). Requires-grad flags; false over sequences of watch calls (flags are never switched on again): witness; single call proved.
* **C69** Saved configuration is restored exactly (model: Config). asdict / load_config_from_dict round trip.
* **C70** All components use the same log directory (model: Config). All configuration operations.
* **C71** A saved configuration can be used to start a new run (model: Config). False: log_dir is not an init field, every saved configuration is rejected.
* **C72** Index data ids are unique (model: DataId). Induct over calls.
* **C73** Hash data ids depend only on sample content (model: DataId). Map of a function; injectivity under a collision-free hypothesis.
* **C74** Merging accumulated logs concatenates them (model: MergeLogs). Induct over logs.
* **C75** Influence from stored logs equals influence from in-memory gradients (model: Codec, Frontend, InfluenceAll). False for flat loading with groups or in l2 and cosine (such calls always raise); the rest is a composition of C02, C14, C15, C46, C47 through a codec parameter.
* **C76** The module-level API uses one run (model: Singleton). State machine.
* **C77** A new session starts from a clean directory (model: Saver). False: stale chunks; witness; partial: when the new session has at least as many chunks.
* **C78** Mixed dtypes in one chunk (model: Storage). False: the metadata of a chunk records one dtype per block of a sample; general refutation.
* **C79** Every module-level function works after init (model: Singleton). False for add_analysis (LogIX has no such method); partial: all others forward.
* **C80** A logging configuration installed on a live run governs further logging (model: Config). False: the logger copies values at construction; no sequence of operations changes them.
* **C81** A run's log directory is the configured one (model: Config). False after initialize_from_log on a moved directory; partial: when the saved log_dir is the directory.
* **C82** Masks that do not match (model: Stats). False: the counter is divided by the mask; witness, partial for matching masks.
* **C83** Reuse after restoring (model: State). False: the counters are gone; witness and partial.
* **C84** Order of modules between processes (model: Dist). False: pairing by order; partial for equal orders is C34.
* **C85** Modes on a GPU (model: Influence). False: norms are on the CPU; partial for the CPU.
* **C86** A saved batch is stored as it was when it ended (model: Session, Saver, Codec). False: hooks stay after a batch and the save buffer has views of the logged tensors; partial for sessions in which gradients arrive only within batches, by an invariant (the buffer refers to LogIX's own tensors, within a batch to none that is in the log).
* **C87** PCA initialisation (model: Modules, Stats). Invariant of the loop of add_lora: the weights of the encoders and decoders made so far are those of pca_init_weight and no later step writes them. Optimality is Ky Fan's theorem, proved over an ordered field from the equations of the decomposition; that `U` has eigenvectors (and not only singular vectors) is because covariances are positive semidefinite (C33).
* **C88** Compression by PCA-LoRA (model: Modules, Grad, Stats, Influence). Best r directions of data of rank r keep its whole norm (C87), hence by Bessel's equality reproduce every logged row; the compressed gradient is `DᵀGAᵀ` (C64), so `G = D(DᵀGAᵀ)A` for logged samples and inner products with them do not change. For other samples Bessel's inequality.
* **C89** Saved scores do not depend on the batching of sources and targets (model: InfluenceAll). Every entry of the saved table is an entry of a call on one source batch and one target batch, by C47's induction along targets and C56's along sources; the state keeps the same view throughout, so C48's entry lemma compares it with the single call.
* **C90** Gradient accumulation in the Hugging Face integration (model: HuggingFace, InfluenceAll). The callback is the loop of C89 over merged windows; a merged log has the samples of its window in order (induction over `merge_logs`), and the windows concatenate to the micro-batches up to the last step.
* **C91** Passes of the Hugging Face trainer (model: HuggingFace, Scheduler). False: influence runs as many passes as the schedule has epochs, and the scheduler is exhausted after one `extract_log`. Unroll the epoch loop.
* **C92** Scale of the Hugging Face loss (model: HuggingFace). False for shifted labels and for accumulation; otherwise the scale cancels the mean.
* **C93** The scores are determined by the logged data (model: Stats, Influence). A solution of `B P A + c P = G` gives the bilinear form of the inverse Hessian in every pair of orthonormal eigenbases of A and B (Parseval), so the forms of two libraries agree when the covariances do; inverses are unique; equal rows give equal covariances (C31). Distributed runs are reduced to it by C98.
* **C94** The scores are the influence function of the logged data (model: Stats, Influence). Composition of C31, C43/C44 (existence of solutions) and the Parseval argument of C93 (any solution gives the score). `Spec/Formula.lean` states the systems in terms of the logged rows only.
* **C95** A new session computes the same influence from the saved statistics (model: State, Influence). Simulation: the two states hold the same dictionaries under the names that influence computations read, and what is not there starts empty in both (`Sim`, `CacheReg`).
* **C96** Loading statistics replaces the ones in use (model: State, Influence). False: cached eigendecompositions of the loading instance stay in use. Holds without caches.
* **C97** Lightning influence returns the scores of the data passed to it (model: Lightning, LightningInfluence). False for a second call; the first call is C89 (with the data as often as the epoch limits ask for) for the loop that the callback runs. Assumed of Lightning: `fit` resets `should_stop` and keeps counting epochs.
* **C98** A distributed run leaves every process in the state of a single process (model: Dist, Stats). The processes' trees have the same leaves with tensors of the same shapes, so every all-reduce is well-formed; the reduced tables are compared leaf by leaf with those of the pooled history moved to the process's devices, and everything else in the state is a function of the registrations. Hence C93 and C94 hold on every process.
* **C99** EKFAC scores are those of the fitted eigenvalues (model: Stats, Influence). The first EKFAC update decomposes the covariances of the first phase; later updates and the second finalize leave the eigenvectors alone, though the latter divides the covariances again. With C36 this gives the form of the inverse Hessian. Eigenbases of a matrix with simple eigenvalues differ by order and signs (`Lemmas/Eigenbasis.lean`), which do not change the form.
* **C100** initialize_from_log restores the LoRA projection (model: LoraIO). False: witness over ℚ, and a theorem that the outcome is the same for all contents of the saved file. Partial: adding LoRA layers to two models of the same structure gives the same structure (names, shapes), so the saved names are those of the second model and loading writes each LoRA parameter.
* **C101** add_lora goes by the lora_config it is given (model: LoraIO). False from the second call on: witness over ℚ (rank 1 for `a`, then rank 2 for `b`). For every call the layers follow the configuration in use (`Spec/LoraIO.lean`: `FollowsConfig`, from the invariant of C63/C66); the handler keeps that of the first call, and all later steps commute with replacing the configuration.
* **C102** Watching a module again does not change what is logged (model: Session). False: witness over ℚ. What happens: the invariant of C18 with the number of hooks of the module as a parameter.
* **C103** The integrations give every sample of a batch its own id (model: BatchIds, Saver). False for Lightning: witness with three samples; iterating over a list of tensors gives the tensors, and buffer_write adds one sample for each id.
* **C104** EKFAC scores in several processes are those of the pooled data (model: Dist, Stats, Influence). After the first common finalize all processes have the covariances of the pooled data (C98); `eigh` is assumed to give eigenvectors that depend on the entries only (`Spec.EighSame`), so the processes rotate their gradients into the same bases. The EKFAC tables are registered for synchronization by the first update, so the second finalize adds up sums and counters; the covariances are added up and divided again, which changes them but not the eigenvectors in use. Then as C99.
* **C105** The statistics of a session are those of the data of the user's program (model: Session, Stats). This joins the theorems about hooks and contexts (C17 to C26) with those about statistics (C30, C31), which speak of sequences of updates. The specification (Spec/SessionStats) keeps a small book of what a reader of the program knows: the mask, the uses of the module, the uses since hooks were last registered, the gradients that have arrived. The proof shows operation by operation that the hooks of the module do what the book notes.
* **C106** After a session the scores are the influence function of the data of the user's program (model: Session, Stats, Influence). C105 gives the covariances in the state as second moments of the data of the program, module by module; what preconditioning needs beyond them (no cached decompositions, no EKFAC table, the choice that `auto` makes) follows from the updates of the session being by the configured plugins only, without masks. The rest is the argument of C94, which is stated for given matrices (`kfac_solutions`, `raw_solutions`).
* **C107** Gradients of grouped convolutions (model: Grad). Spec/ConvGroups has the textbook convolution with groups; a gradient is characterised by pairing with every perturbation of the weight, so that no formula of the code is repeated. False for the code with two groups or more; the blocks of the own groups, and convolutions without groups, are right.
* **C108** What `model_module` says (model: LoraIO, State, Stats, Modules, Grad). Spec/ModelModule has the description and the operations that may come between; the invariant is that `model_module` is registered, never cleared and never normalised. Sizes hold for linear layers and convolutions without groups and are false with groups.
* **C109** Self-influence shrinks with damping (model: Influence, Stats). From C94: the systems of all Hessians are damped systems of Gram matrices (Lemmas/Gram), for which monotonicity and the bound are proved without inverses or eigenvalues.
* **C110** Cauchy and Schwarz for the scores (model: Influence, Stats). As C109, by the discriminant of the energy of combinations of two gradients, summed over the modules.
* **C111** what a program saves is its own data (model: Session, Saver, Reader). Spec/SessionSaves reads off the program which batches are saved and which uses of a module have arrived in them. Proof: the invariant of C105 gives the logged gradient at every end of a batch; an invariant on the names in the log (Lemmas/SessionNames) gives that nothing else is in it; then C86.
* **C112** (Props/SessionScores, vocabulary in Spec/SessionScores) joins C106, C111 and C75: `StoredProgram` collects what is asked of the program, `ScoredBy` reads the scores against the gradients of the program. Example: a session with two saved batches, scores computed and compared.
* **C113** (Props/SelfBatches, vocabulary in Spec/SelfBatches) `SelfRun` is the sequence of calls, `SelfJoined` compares its results with one result.
* **C114** (Model/SelfInfluence, Props/TrainerSelf) the mode "self_influence" of both callbacks. The field `computed` is a ghost: it lists what the callback receives and drops.
* **C115** (Props/Success, Props/SuccessLogged, vocabulary in Spec/Success) `InfReady` is what a call needs and keeps; `ready_of_logged` derives it from the logged history.
* **C116** (Props/TokenIds, model in Model/TokenIds, vocabulary in Spec/TokenIds) token batches as int64 tensors through the generator of C103; padding is specified, not modelled (it is the collator's).
* **C117** (Props/Trainers, model in Model/Trainers, vocabulary in Spec/Trainers) the model of the user is any function of training flag, parameters and buffers.
* **C118** (Props/GradOnly, Props/GradOnlyExample, vocabulary in Spec/GradOnly) full equality of results and states for logs with the same modules and gradients.
* **C119** (Props/Devices, Props/DevicesExample, vocabulary in Spec/Devices) equality of results, including exceptions, for logs with equal values.
* **C120** (Props/LogsKept, model in Model/InfluenceEffects) the target log after the call as a function of the arguments.
* **C121** (Props/FormulaModes, Props/FormulaModesExample) existence of the solutions for source and target, and the scores of the total and the groups for all solutions.
* **C122** (Spec/SessionReturns, Lemmas/SessionReturns, Lemmas/SessionFine, Lemmas/SessionSteps, Props/SessionReturns, Props/SessionReturnsExample) `ProgramFits` is checked on the program text with the reader's notes of C105 and C112; an invariant over the session (`Tame`) gives that each operation returns. Props/MaskedReturns has the version with masks.
* **C123** (Spec/FullMask, Props/FullMask) masks of ones against no masks: counters of samples and of positions.
* **C124** (Spec/SessionDirectory, Props/SessionDirectory, Props/SessionDirectoryExample) joins C122, C112 and C115: that a program fits together gives what C112 asks of the stored gradients (`storedProgram`), and the batches of the loader have the shapes that C115 asks for (`loaded_shapes`).
* **C125** (Spec/Padding, Props/TokenStats, Props/TokenScores) the reader lists the tokens of the program (`tokens`) from the activations passed to the hooks and the masks; the hook multiplies the activations by the mask and the statistics count the ones of the mask, so the padding adds nothing (`padded_sum`).
* **C126** (Props/Padding, Props/PaddingExample) the two programs are compared by what the reader sees (`SameTokens`, `SameNotes`, `SameGradNotes`); per-sample gradients are sums over the tokens (`gradient_tokens`), and the influence function is determined by moments and gradients.
* **C127** (Props/MaskBackward) one batch with a gradient of 4 at a masked position has covariance 10 where the tokens give 14/3.
* **C128** (Model/DistSession, Spec/DistSession, Lemmas/DistSession, Props/DistSession, Props/DistSessionExample) `finalizeSessions` runs `finalizeDist` and then the flush of every process. The order of the quantities can be read off the layout of the dictionaries (`order_of_outline`), so C98 applies; sums over histories that lead to the same states agree (`same_sums_all`), which gives the statistics of the pooled data.
* **C129** (Spec/DistSession `SameOp`, `SameProgram`; Lemmas/InStep, Props/InStep, Props/InStepExample) The part of a session that does not depend on data (`shellOf`) and the layout of means and covariances are the same in both runs after every step (`InSync`); only successful steps are compared.
* **C130** (Spec/Batching, Lemmas/Batching, Props/Batching, Props/BatchingExample) The rows of a batch are the rows of its samples one after another, so that second moments depend on the multiset of samples only; C128 characterises the scores by the second moments.
* **C131** (Spec/SampleAlone, Props/SampleAlone, Props/SampleAloneExample) `LoggingRun.Completes` collects the hypotheses of C111, so that they can be used for two runs; `SameSampleUse` says that two uses of a layer have the same sample.
* **C132** (Spec/LoraLog, Props/LoraLog, Props/LoraLogExample) Built on C64 (gradients of one use) and C111 (what a run stores), with the `LoggingRun` of C131 for both runs.
* **C133** (Spec/LoraStats, Props/LoraStats, Props/LoraScores, Props/LoraScoresExample) `congruent W P M` is P M P^T; `Encodes` and `Decodes` say what comes through the wrapper, forward and backward.
* **C134** (Spec/DefaultDamping, Props/DefaultDamping, Props/DefaultDampingExample) `default_kfac` says that no damping is the same as the damping of the first module; `raw_solutions_default` treats the inverse, where modules differ.
* **C135** (Spec/ModuleOrder, Props/ModuleOrder, Props/ModuleOrderExample) The systems of C121 and C134 are the same for both orders (`solves_perm`, `usedDamping_perm`), and so are the sums over modules (`against_perm`).
* **C136** (Spec/LossScale, Props/LossScale, Props/LossScaleExample) `solves_scaled`: a solution of the damped system, divided by the factor, solves the system of the second run; `usedDamping_scaled`: the default damping is homogeneous of degree two.
* **C137** (Spec/Repeated, Props/Repeated, Props/RepeatedExample, Props/RepeatedSession, Props/RepeatedSessionExample) `secondMoment_repeated`; from programs, `isSecondMoment_times`.
* **C138** (Spec/SessionEkfac, Props/SessionEkfac, Props/SessionEkfacExample) `session_first`, `session_second`: the updates of each program; `ekfac_parts` (Props/EkfacScores): what the state holds of one module.
* **C139** (Spec/LoraState, Props/LoraState, Props/LoraStateExample) `restoreLora_st`: LoRA does not write statistics; `running_caches`: the caches of a run with `watch` and `add_lora`.
* **C140** (Spec/Turned, Lemmas/Turned, Props/Turned, Props/TurnedExample) second moments become `P M Pᵀ` (`secondMoment_turned`, `flatMoment_turned` with a Kronecker product), traces and inner products stay (`trace_turned`, `dot_turned`), solutions turn (`solves_turned`).
* **C141** (Spec/ReadAll, Props/ReadAll, Props/ReadAllExample) no homogeneity as in C14; the ids of a fetch are those of the index (`fetchItems_ids`), the groups of indices concatenate to the range (`batchIndices_spec`).
* **C142** (Spec/NewProcess, Props/NewProcess, Props/NewProcessExample) `computeInfluenceAll_sim`: similar states (`Sim`, as for C95) give the same results and the same heap; the rest is C124.
* **C143** (Spec/LoaderModes, Props/LoaderModes, Props/LoaderModesExample) `call_tiles` (C89) reduces a call against a loader to a call per batch from the state before, `modes_of_solutions` (C121) gives the scores of each, and `program_loaded` the samples of the batches (C112).
* **C144** (Model/LogDtype, Spec/LogDtype, Lemmas/LogDtype, Props/LogDtype, Props/LogDtypeExample) An invariant of histories: what the log and the buffer refer to has the configured type, and no operation changes the type of a tensor. Rounding by the conversion is not modelled.
* **C145** (Props/LargeDamping) By C94 the score is the product with a solution of the damped system; `solves_damped` (C109) shows the matrix is a Gram matrix T, the same for all dampings. Then c * x - g = -T x, and c |<x, T h>| is at most |g|^2 + |T h|^2 because c |x| <= |g|.
* **C146** (Spec/Leverage, Props/Leverage) By C106 the score is g.x with (S + c) x = g, and S is the mean of the products of all gradients, g among them; so g.x >= x.Sx >= (g.x)^2 / n.
* **C147** (Props/LoraTwice) From `C65_any_partial`, applied to a model that has LoRA layers; `addLora_wf` shows that such models meet its hypotheses.
* **C148** (Props/NoPrecondition) Mode dot and self-influence by following the code; l2 and cosine from `computeInfluence_ok` and `computeSelf_ok`.
* **C149** (Props/OtherModules) From `computeInfluence_ok`, `preOf_unique` and the definition of `syncDevice`.
* **C150** (Props/AverageSelf, Spec/AverageSelf) The sum is N times the trace of (S + c)^-1 S (`damped_trace`), with solutions for the unit vectors (`damped_exists`).
* **C151** (Props/Bilinear, Spec/Bilinear) `form_weighted` and `form_weighted'`: `HessKind.form` is linear in both arguments, for no Hessian, KFAC and raw.
* **C152** (Props/MeanSquare) With x = (S + c)^-1 g the mean of the squares in one module is x S x, at most x (S + c) x = x g (`damped_mean_square`); `square_sum_le` for several modules.
* **C153** (Props/Testing, Spec/Testing) `Calm`: a step that leaves options and statistics alone when only logs are requested; closed under sequence and loops; every test operation is calm.
* **C154** (Props/Interfaces, Spec/Interfaces) `Blind`: a step that neither reads nor writes the flag of `run(..., save=...)`; closed under sequence and loops.
* **C155** (Props/AllOpened, Spec/AllOpened) the names that the regular expression accepts, specified as a decomposition of the string.
* **C156** (Props/WholeWrites) inverts the two loops of `write`: a loop that returns performed consecutive complete stores.
* **C157** (Props/OneSample) `damped_member`: the product of a solution of the damped system with one of the vectors of the Gram matrix.
* **C158** (Props/WholeMetadata, Spec/WholeMetadata) inverts the loops of `write` for the entries; `Describes` specifies an entry.
