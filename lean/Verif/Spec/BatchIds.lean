/-
Specification for the ids of a batch.
-/
import Verif.Model.BatchIds

namespace Logix.Spec

/-- The first dimension of the tensor is `n`. -/
def Rows (a : Arr) (n : Nat) : Prop := ∃ s, a.shape = n :: s

/-- The batch has `n` samples: the tensor, or all tensors in it, have `n` rows. -/
def BatchSize (n : Nat) : Batch → Prop
  | .tensor a => Rows a n
  | .seq ts => ts ≠ [] ∧ ∀ a ∈ ts, Rows a n
  | .dict d => d ≠ [] ∧ ∀ e ∈ d, Rows e.2 n

/-- The bytes of row `i`. -/
def rowBytes (a : Arr) (i : Nat) : List UInt8 :=
  let w := numel a.shape.tail * a.dtype.itemsize
  (a.bytes.drop (i * w)).take w

/-- The ids are those of the rows of the tensor: one for each, and a function of its bytes alone. -/
def RowIds (H : List UInt8 → PyStr) (a : Arr) (n : Nat) (ids : List PyStr) : Prop :=
  ids.length = n ∧ ∀ i, i < n → ids[i]? = some (H (rowBytes a i))

end Logix.Spec
