/-
Vocabulary for "only the gradients of the logs matter".
-/
import Verif.Spec.Influence

namespace Logix.Spec
variable {K : Type}

/-- The modules of a log with their gradients, in order. -/
def grads (d : GLog K) : List (PyStr × Option (Tensor K)) := d.map fun p => (p.1, Dict.get? p.2 (LogType.name .grad))

/-- The log without its entries of other types. -/
def gradOnly (d : GLog K) : GLog K := d.map fun p => (p.1, p.2.filter fun q => decide (q.1 = LogType.name .grad))

/-- In every module the gradient is the first thing that was logged. -/
def GradFirst (d : GLog K) : Prop := ∀ p ∈ d, ∀ q ∈ p.2.head?, q.1 = LogType.name .grad

/-- All tensors of the log are on one device. -/
def OneDev (dev : Dev) (d : GLog K) : Prop := ∀ p ∈ d, ∀ q ∈ p.2, q.2.dev = dev

/-- Whatever the log `t` has, the log `d` has, too. -/
def Covers (d t : GLog K) : Prop := ∀ p ∈ t, ∀ q ∈ p.2, ∃ x, (Dict.get? d p.1).bind (fun sub => Dict.get? sub q.1) = some x

end Logix.Spec
