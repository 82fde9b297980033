/-
Vocabulary for what the trainers leave of the model.
-/
import Verif.Model.Trainers

namespace Logix.Spec
variable {K X O σ : Type}

/-- In evaluation mode the model does not change its buffers. -/
def EvalPure (P : Pass K X O) : Prop := ∀ p b x, P.buf false p b x = b

/-- In evaluation and in training mode the model is the same and does not change its buffers (no dropout, no batch normalization). -/
def ModeFree (P : Pass K X O) : Prop := EvalPure P ∧ (∀ p b x, P.buf true p b x = b) ∧ ∀ p b x, P.seen true p b x = P.seen false p b x

/-- An optimizer for the named parameters: it does not change a model none of whose named parameters has a gradient, and `zero_grad()` removes their gradients. -/
structure OptimOk (names : List PyStr) (o : Optim K σ) : Prop where
  skips : ∀ s p g, (∀ k ∈ names, Dict.get? g k = none) → (o.step s p g).2 = p
  clears : ∀ g, ∀ k ∈ names, Dict.get? (o.zeroGrad g) k = none

/-- Clipping gives no gradients to parameters without. -/
def ClipOk (clip : Dict PyStr (Tensor K) → Dict PyStr (Tensor K)) : Prop := ∀ g k, Dict.get? g k = none → Dict.get? (clip g) k = none

/-- The model is left as it was, and what was seen is what evaluating it on the batches shows. -/
structure OnlyLooks (P : Pass K X O) (n n' : Net K) (xs : List X) (seen : List O) : Prop where
  params : n'.params = n.params
  buffers : n'.buffers = n.buffers
  seen : seen = xs.map (P.seen false n.params n.buffers)

end Logix.Spec
