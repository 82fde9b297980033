/-
Specification for C158: what an entry of the metadata says about a sample.
-/
import Verif.Model.Storage

namespace Logix

/-- What an entry says about the arrays of a sample, apart from the offset. -/
def Describes (order : List Path) (m : MetaEntry) (id : PyStr) (xs : List Arr) : Prop :=
  m.dataId = id ∧ m.path = order ∧ m.shape = xs.map Arr.shape ∧ m.blockSize = (xs.map fun a => numel a.shape).sum ∧
    ∃ a, xs.getLast? = some a ∧ m.dtype = a.dtype

end Logix
