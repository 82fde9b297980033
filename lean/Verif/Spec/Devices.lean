/-
Vocabulary for "it does not matter where the logs are".
-/
import Verif.Spec.GradOnly

namespace Logix.Spec
variable {K : Type}

/-- Everything in a log except the devices: modules, types of entries, shapes and numbers. -/
def values (d : GLog K) : List (PyStr × List (PyStr × List Nat × List K)) :=
  d.map fun p => (p.1, p.2.map fun q => (q.1, q.2.shape, q.2.data))

end Logix.Spec
