/-
Specification: the same run with the loss multiplied by a number.
-/
import Verif.Spec.ModuleOrder

namespace Logix.Spec
variable {K : Type} [Field K]

/-- The tensor with all entries multiplied by `a`. -/
def scaledTensor (a : K) (t : Tensor K) : Tensor K := ⟨t.dev, t.shape, t.data.map (a * ·), by rw [List.length_map]; exact t.wf⟩

/-- What is logged for the statistics when the loss is multiplied by `a`: output gradients and gradients are multiplied by `a`, inputs are as before. -/
def scaledCall (a : K) (pc : Plugin × StatCall K) : Plugin × StatCall K :=
  if pc.2.logType = .forward then pc else (pc.1, { pc.2 with data := scaledTensor a pc.2.data })

/-- The log with all its tensors multiplied by `a`. -/
def scaledLog (a : K) (d : GLog K) : GLog K := d.map fun ms => (ms.1, ms.2.map fun kt => (kt.1, scaledTensor a kt.2))

end Logix.Spec
