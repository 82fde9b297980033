/-
The Hugging Face integration: logix/huggingface/callback.py and patch.py, driven by the training loop of the Hugging Face `Trainer` (assumed, not
part of the repository), and logix/utils.py `merge_logs` on logs of tensors. Distributed training is not modelled.
-/
import Verif.Model.InfluenceAll
import Verif.Model.Scheduler

namespace Logix
variable {K : Type}

/-- `torch.cat([a, b], dim=0)`. Zero-dimensional tensors, tensors on different devices and tensors that differ beyond the first dimension raise
RuntimeError. Simplification: the special treatment of one-dimensional empty tensors is left out. -/
def Tensor.cat0 [Zero K] (a b : Tensor K) : Py (Tensor K) :=
  match a.shape, b.shape with
  | n :: s, m :: s' =>
    if s = s' ∧ a.dev = b.dev then
      .ok (Tensor.ofFn a.dev ((n + m) :: s) fun idx =>
        match idx with
        | i :: r => if i < n then a.el (i :: r) else b.el ((i - n) :: r)
        | [] => 0)
    else .error .runtimeError
  | _, _ => .error .runtimeError

/-- logix/utils.py:166-174 `merge_log_dict` for the dictionary of one module. -/
def mergeTypes [Zero K] (merged : Dict PyStr (Tensor K)) : List (PyStr × Tensor K) → Py (Dict PyStr (Tensor K))
  | [] => .ok merged
  | (k, v) :: rest =>
    match Dict.get? merged k with
    | none => mergeTypes (Dict.set merged k v) rest
    | some t =>
      match t.cat0 v with
      | .error e => .error e
      | .ok c => mergeTypes (Dict.set merged k c) rest

/-- logix/utils.py:166-174 `merge_log_dict` for a log. A module that is missing in the merged log, a nested defaultdict, starts as an empty dictionary. -/
def mergeModules [Zero K] (merged : GLog K) : List (PyStr × Dict PyStr (Tensor K)) → Py (GLog K)
  | [] => .ok merged
  | (m, d) :: rest =>
    match mergeTypes ((Dict.get? merged m).getD []) d with
    | .error e => .error e
    | .ok d' => mergeModules (Dict.set merged m d') rest

/-- logix/utils.py:181-183: the loop of `merge_logs`. -/
def mergeBatchesFrom [Zero K] (ids : List PyStr) (merged : GLog K) : List (List PyStr × GLog K) → Py (List PyStr × GLog K)
  | [] => .ok (ids, merged)
  | (dataId, log) :: rest =>
    match mergeModules merged log with
    | .error e => .error e
    | .ok merged' => mergeBatchesFrom (ids ++ dataId) merged' rest

/-- logix/utils.py:177-184 `merge_logs` -/
def mergeBatches [Zero K] (logs : List (List PyStr × GLog K)) : Py (List PyStr × GLog K) := mergeBatchesFrom [] [] logs

/-- The arguments that influence computations of the callback use: logix/huggingface/arguments.py `influence_mode`, `influence_damping`,
`influence_groups`. -/
structure HFArgs (K : Type) where
  mode : Mode
  damping : Option K
  groups : Option (List PyStr)

/-- logix/huggingface/callback.py:22-37: the part of the callback that influence computations use: `logix.influence` (with the state it refers to)
and `accumulated_log`. -/
structure HFCallback (K : Type) where
  infl : IFObj K
  acc : List (List PyStr × GLog K)

/-- A micro-batch: what `logix.get_log(copy=True)` returns in the hook that follows it, and whether that hook is `on_step_end`; otherwise it is
`on_substep_end` (gradient accumulation goes on). -/
structure Micro (K : Type) where
  ids : List PyStr
  log : GLog K
  step : Bool

/-- logix/huggingface/callback.py:69-83 `on_step_end` and 95-97 `on_substep_end` in mode "influence". `loader` is the list of the batches of
`log_dataloader()` (99-104), which is built once. `compute_influence_all` is called with its defaults `precondition=True` and `hessian="auto"`. -/
def HFCallback.influenceHook [Field K] (L : Lib K) (sqrt : K → K) (a : HFArgs K) (loader : List (List PyStr × LogArg K)) (c : HFCallback K) (b : Micro K) :
    Py (HFCallback K) :=
  let acc := c.acc ++ [(b.ids, b.log)]
  if b.step then
    match mergeBatches acc with
    | .error e => .error e
    | .ok (ids, log) =>
      match computeInfluenceAll L sqrt c.infl ids (.dict log) loader a.mode true true .auto a.groups a.damping with
      | .error e => .error e
      | .ok (o, _) => .ok ⟨o, []⟩
  else .ok { c with acc := acc }

/-- The micro-batches of an epoch in mode "influence". -/
def HFCallback.influenceBatches [Field K] (L : Lib K) (sqrt : K → K) (a : HFArgs K) (loader : List (List PyStr × LogArg K)) :
    HFCallback K → List (Micro K) → Py (HFCallback K)
  | c, [] => .ok c
  | c, b :: bs =>
    match c.influenceHook L sqrt a loader b with
    | .error e => .error e
    | .ok c => influenceBatches L sqrt a loader c bs

/-- logix/huggingface/arguments.py:73-74 and patch.py:97-111: `logix_args.mode`. -/
inductive HFMode where
  | log | influence | selfInfluence
  deriving DecidableEq

/-- What happens during `train`, in order: calls made on the LogIX object by the scheduler or a hook, `initialize_from_log()`, the batches of one epoch,
`finalize()`. -/
inductive HEvent where
  | call (c : SCall)
  | initializeFromLog
  | batches (epoch : Nat)
  | finalize

/-- logix/huggingface/callback.py:57-67 `on_train_begin`. (`eval()` is `save(False)`. The assignments to the trainer's state have no effect: the training
loop has read the number of epochs before.) -/
def hfTrainBegin (initFromLog : Bool) (mode : HFMode) : List HEvent :=
  (if initFromLog then [.initializeFromLog] else []) ++
    if mode = .log then [] else [.call (.setup { grad := some [.name ['l', 'o', 'g']] }), .call (.save false)]

/-- The loop over the epochs, with the first argument counting those to come, and logix/huggingface/callback.py:49-55 `on_epoch_begin`, `on_epoch_end`.
Returns the events, the scheduler and what was raised. -/
def hfEpochs (mode : HFMode) : Nat → Nat → Scheduler → List HEvent × Scheduler × Option PyErr
  | 0, _, s => ([], s, none)
  | n + 1, epoch, s =>
    if mode = .log then
      match s.next with
      | (s, calls, .error e) => (calls.map .call, s, some e)
      | (s, calls, .ok _) =>
        let rest := hfEpochs mode n (epoch + 1) s
        (calls.map .call ++ [.batches epoch, .finalize] ++ rest.1, rest.2)
    else
      let rest := hfEpochs mode n (epoch + 1) s
      ([.batches epoch] ++ rest.1, rest.2)

/-- logix/huggingface/patch.py:97-111: `extract_log`, `influence` and `self_influence` up to their return values. The trainer runs `num_train_epochs`
epochs, which patch.py:74 sets to the length of the schedule. -/
def hfTrain (initFromLog : Bool) (mode : HFMode) (s : Scheduler) : List HEvent × Scheduler × Option PyErr :=
  let rest := hfEpochs mode s.len 0 s
  (hfTrainBegin initFromLog mode ++ rest.1, rest.2)

/-- What the events of `train` do to the influence object when every epoch has the same micro-batches. (The state that the object refers to is that of
after `initialize_from_log`; `setup` and `save` do not touch it.) -/
def HFCallback.influenceEvents [Field K] (L : Lib K) (sqrt : K → K) (a : HFArgs K) (loader : List (List PyStr × LogArg K)) (data : List (Micro K)) :
    HFCallback K → List HEvent → Py (HFCallback K)
  | c, [] => .ok c
  | c, .batches _ :: es =>
    match c.influenceBatches L sqrt a loader data with
    | .error e => .error e
    | .ok c => influenceEvents L sqrt a loader data c es
  | c, _ :: es => influenceEvents L sqrt a loader data c es

/-- logix/huggingface/patch.py:201-203 `get_sum_scale`: how many labels are not ignored. The labels are given as one list per sample. -/
def getSumScale (labels : List (List Int)) (ignore : Int) : Nat := (labels.map fun r => r.countP fun x => decide (x ≠ ignore)).sum

/-- The positions of a sample at which a model takes its loss: those with a label that is not ignored, without the first `shift`. (Assumed: causal language
models predict the label of the next position, so they have `shift = 1`; other models have `shift = 0`.) -/
def lossPositions (shift : Nat) (ignore : Int) (row : List Int) : List Nat := (List.range row.length).filter fun t => decide (shift ≤ t ∧ row.getD t ignore ≠ ignore)

/-- logix/huggingface/patch.py:156-190 `training_step`: what arrives as gradient at the output of a module for one sample. The loss of the model is the mean over
the positions of all samples (assumed: the Hugging Face models reduce like this); the code multiplies it by the scale; `accelerator.backward` divides it by the number of
accumulation steps (assumed, `accelerate`). `g t` is the gradient of the loss at position `t` of the sample. -/
def stepGrad [Field K] (shift accumulation : Nat) (ignore : Int) (labels : List (List Int)) (row : List Int) (g : Nat → K) : K :=
  (((lossPositions shift ignore row).map g).sum / ((labels.map fun r => (lossPositions shift ignore r).length).sum : Nat)) * (getSumScale labels ignore : Nat) /
    (accumulation : K)

end Logix
