/-
Specification: the directory that `initialize_from_log` reads for an argument.
-/
import Verif.Spec.ModelModule

namespace Logix.Spec
variable {K : Type}

/-- The directory for an argument `state_path` or `lora_path`: the given one; without one (or with an empty string), the log directory. -/
def ReadFrom (s : LRun K) (path : Option PyStr) (d : PyStr) : Prop := (path = some d ∧ d ≠ []) ∨ ((path = none ∨ path = some []) ∧ d = s.logDir)

end Logix.Spec
