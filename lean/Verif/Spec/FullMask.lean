/-
Specification: masks that keep every position.
-/
import Verif.Spec.Stats

namespace Logix.Spec
variable {K : Type} [Semiring K]

/-- A batch for a linear layer with `T` positions per sample (such as `[batch, T, dim]`), and a mask of ones over its positions, on the same device. -/
def FullMask (T : Nat) (c : StatCall K) : Prop :=
  c.module = some .linear ∧ (∃ n mid w, c.data.shape = n :: (mid ++ [w]) ∧ numel mid = T) ∧
    ∃ mk, c.mask = some mk ∧ mk.dev = c.data.dev ∧ mk.shape = c.data.shape.dropLast ∧ ∀ x ∈ mk.data, x = 1

/-- The same batch without the mask. -/
def bare (c : StatCall K) : StatCall K := { c with mask := none }

end Logix.Spec
