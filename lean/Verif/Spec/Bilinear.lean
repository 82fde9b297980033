/-
Vocabulary for: scores of sums of gradients.
-/
import Verif.Spec.Influence

namespace Logix.Spec
variable {K : Type} [Semiring K]

/-- In every module, the gradient of sample `i` of `d` is the sum of the gradients of samples of `d'` with weights. -/
def WeightedSum (ws : List (K × Nat)) (d' d : GLog K) (keys : List PyStr) (i : Nat) : Prop :=
  ∀ m ∈ keys, ∃ g g', grad d m = some g ∧ grad d' m = some g' ∧ g.shape.tail = g'.shape.tail ∧
    ∀ idx, g.el (i :: idx) = (ws.map fun w => w.1 * g'.el (w.2 :: idx)).sum

end Logix.Spec
