/-
Vocabulary for: test data does not change the statistics.
-/
import Verif.Model.Session

namespace Logix.Spec
variable {K : Type}

/-- What a program does while it processes test data: the model runs, modules are watched, batches begin and end, logs are read, saving is turned on and off. It does not call
`setup`, `finalize`, `clear` or anything else that is meant to change the options or the statistics. -/
def Testing : SOp K → Prop
  | .setup _ | .analysis _ | .finalize _ | .clear => False
  | _ => True

/-- Logs are requested, but no statistics. -/
def LogOnly (o : LogOption) : Prop := (∀ p ∈ o.forward, p = .log) ∧ (∀ p ∈ o.backward, p = .log) ∧ ∀ p ∈ o.grad, p = .log

end Logix.Spec
