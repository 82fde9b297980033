/-
Vocabulary for histories in which no module (or watched activation) is logged twice in a batch.
-/
import Verif.Spec.Session

namespace Logix.Spec
variable {K : Type}

/-- What the log of the batch has for a module and log type. -/
def entry (s : Sess K) (name ty : PyStr) : Option TRef := Dict.get? ((Dict.get? s.log name).getD []) ty

/-- The names under which tensors of the user arrive at LogIX during an operation, and their log type: inputs of hooked modules, gradients of outputs, gradients of watched
activations, watched activations. -/
def arriving (s : Sess K) : SOp K → LogType × List PyStr
  | .forward m _ _ => (.forward, (s.pre.filter fun h => h.mod = m).map ModHook.name)
  | .backward y _ => (.backward, (s.calls.filter fun c => c.out = y).flatMap PastCall.names)
  | .gradAt y _ => (.backward, (s.tens.filter fun h => h.out = y).flatMap fun h => match h.fn with | .activation n => [n] | .grad .. => [])
  | .watchActivation d => (.forward, d.map Prod.fst)
  | _ => (.forward, [])

/-- Is the plugin `log` configured for the log type? -/
def logsType (s : Sess K) : LogType → Prop
  | .forward => .log ∈ s.opt.forward
  | .backward => .log ∈ s.opt.backward
  | .grad => .log ∈ s.opt.grad

/-- If tensors of the user arrive and are logged, then under different names, and the log has no entry for them yet. -/
def FirstTime (s : Sess K) (o : SOp K) : Prop :=
  logsType s (arriving s o).1 → (arriving s o).2.Nodup ∧ ∀ n ∈ (arriving s o).2, entry s n (arriving s o).1.name = none

end Logix.Spec
