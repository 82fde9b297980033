/-
Vocabulary for: the two programming interfaces.
-/
import Verif.Model.Session

namespace Logix.Spec
variable {K : Type}

/-- Anything that a program does, but not the call that prepares a `with` statement and not the end of one: these write and read the flag of `with run(..., save=...)`. -/
def InContext : SOp K → Prop
  | .call .. | .exit => False
  | _ => True

/-- The session with the flag of the last `run(..., save=...)` replaced. -/
def flagged (s : Sess K) (save : Bool) : Sess K := { s with saveBatch := save }

end Logix.Spec
