/-
How many passes the epoch limits of a trainer ask for (C97).
-/
import Verif.Model.Lightning

namespace Logix
namespace Spec

/-- `n` passes are made from epoch `cur`: one, or more as long as `min_epochs` is not reached, but none beyond `max_epochs`. -/
def Passes (t : TrainerLimits) (cur n : Nat) : Prop :=
  0 < n ∧ (∀ m, t.maxEpochs = some m → cur + n ≤ m) ∧ (n = 1 ∨ cur + n ≤ t.minEpochs) ∧ (t.maxEpochs = some (cur + n) ∨ t.minEpochs ≤ cur + n)

end Spec
end Logix
