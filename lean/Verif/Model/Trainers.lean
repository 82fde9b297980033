/-
What the patched trainers do to the model they are given: logix/huggingface/patch.py:115-190, logix/lightning/callback.py:89-90, driven by the loops of the Hugging Face
and the Lightning trainer (assumed, not part of the repository). Distributed training, apex and mixed precision are not modelled.
-/
import Verif.Model.Tensor

namespace Logix
variable {K X O σ : Type}

/-- The state of a model: parameters by name, the parameters whose `grad` is not None, buffers (such as the running averages of batch normalization), and `training`. -/
structure Net (K : Type) where
  params : Dict PyStr (Tensor K)
  grads : Dict PyStr (Tensor K)
  buffers : Dict PyStr (Tensor K)
  training : Bool

/-- A forward and a backward pass of the user's model over a batch, as functions of `training`, the parameters and the buffers: what the hooks of LogIX see, the
gradients that are left in `grad` (from those that were there before), and the buffers afterwards. -/
structure Pass (K X O : Type) where
  seen : Bool → Dict PyStr (Tensor K) → Dict PyStr (Tensor K) → X → O
  grad : Bool → Dict PyStr (Tensor K) → Dict PyStr (Tensor K) → X → Dict PyStr (Tensor K) → Dict PyStr (Tensor K)
  buf : Bool → Dict PyStr (Tensor K) → Dict PyStr (Tensor K) → X → Dict PyStr (Tensor K)

/-- The passes over one batch. -/
def Pass.run (P : Pass K X O) (n : Net K) (x : X) : Net K × O :=
  ({ n with grads := P.grad n.training n.params n.buffers x n.grads, buffers := P.buf n.training n.params n.buffers x },
    P.seen n.training n.params n.buffers x)

/-- An optimizer with internal state `σ`: `step()` and `zero_grad()`. -/
structure Optim (K σ : Type) where
  step : σ → Dict PyStr (Tensor K) → Dict PyStr (Tensor K) → σ × Dict PyStr (Tensor K)
  zeroGrad : Dict PyStr (Tensor K) → Dict PyStr (Tensor K)

/-- logix/huggingface/patch.py:122-136 `create_optimizer`: `DummyOptimizer`. -/
def dummyOptimizer : Optim K σ := ⟨fun s p _ => (s, p), fun g => g⟩

/-- A trainer: the model, its optimizer with its state, and what the hooks have seen. -/
structure Train (K σ O : Type) where
  net : Net K
  opt : Optim K σ
  st : σ
  seen : List O

/-- `optimizer.step()` -/
def Train.optStep (t : Train K σ O) : Train K σ O :=
  { t with st := (t.opt.step t.st t.net.params t.net.grads).1, net := { t.net with params := (t.opt.step t.st t.net.params t.net.grads).2 } }

/-- `optimizer.zero_grad()` -/
def Train.optZero (t : Train K σ O) : Train K σ O := { t with net := { t.net with grads := t.opt.zeroGrad t.net.grads } }

/-- The passes over a batch inside the context of LogIX. -/
def Train.pass (P : Pass K X O) (t : Train K σ O) (x : X) : Train K σ O := { t with net := (P.run t.net x).1, seen := t.seen ++ [(P.run t.net x).2] }

/-- logix/huggingface/patch.py:157-190 `training_step`, in the loop of the trainer: after the last micro-batch of a step (`true`) it clips the gradients (`clip`), calls
`step()` of the optimizer and `model.zero_grad()`. -/
def Train.hfBatch (P : Pass K X O) (clip : Dict PyStr (Tensor K) → Dict PyStr (Tensor K)) (t : Train K σ O) (b : Bool × X) : Train K σ O :=
  let t := ({ t with net := { t.net with training := false } } : Train K σ O).pass P b.2
  if b.1 then
    let t := ({ t with net := { t.net with grads := clip t.net.grads } } : Train K σ O).optStep
    { t with net := { t.net with grads := [] } }
  else t

/-- `train()` of the patched Hugging Face trainer, in all three modes: logix/huggingface/patch.py:115-120 `create_optimizer_and_scheduler` comes first (an optimizer that
was given to the trainer is replaced); then the micro-batches of all epochs. -/
def Train.hfTrain (P : Pass K X O) (clip : Dict PyStr (Tensor K) → Dict PyStr (Tensor K)) (t : Train K σ O) (data : List (Bool × X)) : Train K σ O :=
  data.foldl (Train.hfBatch P clip) { t with opt := dummyOptimizer }

/-- A batch with Lightning (automatic optimization). At the end of an accumulation (`true`) the callback is called before `step()`:
logix/lightning/callback.py:89-90 `on_before_optimizer_step`. `clip` is gradient clipping, which comes after the callback. -/
def Train.lightBatch (P : Pass K X O) (clip : Dict PyStr (Tensor K) → Dict PyStr (Tensor K)) (t : Train K σ O) (b : Bool × X) : Train K σ O :=
  let t := t.pass P b.2
  if b.1 then
    let t := t.optZero
    ({ t with net := { t.net with grads := clip t.net.grads } } : Train K σ O).optStep
  else t

/-- `fit()` of the patched Lightning trainer, in all three modes, with the optimizer of the user's module. Lightning calls `train()` of the model first; LogIX does not
change that (logix/lightning/patch.py:167-181, logix/lightning/callback.py:42-47; `self.logix.eval()` there concerns LogIX only). -/
def Train.fit (P : Pass K X O) (clip : Dict PyStr (Tensor K) → Dict PyStr (Tensor K)) (t : Train K σ O) (data : List (Bool × X)) : Train K σ O :=
  data.foldl (Train.lightBatch P clip) { t with net := { t.net with training := true } }

end Logix
