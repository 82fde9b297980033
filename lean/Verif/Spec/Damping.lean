/-
Vocabulary for bounds on scores.
-/
import Verif.Spec.Formula

namespace Logix.Spec
variable {K : Type}

/-- The square of the norm of the gradient of sample `i`, over all modules. -/
def sqNorm [Semiring K] (d : GLog K) (i : Nat) : K :=
  ((Dict.keys d).map fun m => match grad d m with
    | some g => dot g.shape.tail (row g i) (row g i)
    | none => 0).sum

/-- Two logs of the same modules, with gradients of the same sizes. -/
def SameSizes (d e : GLog K) : Prop :=
  Dict.keys d = Dict.keys e ∧ ∀ m g h, grad d m = some g → grad e m = some h → g.shape.tail = h.shape.tail

end Logix.Spec
