/-
The ids that the integrations give to the samples of a batch: logix/lightning/callback.py:57-61 and logix/huggingface/patch.py:192-199.
-/
import Verif.Model.DataId
import Verif.Model.Collate
import Verif.Model.Saver

namespace Logix

/-- A batch as a PyTorch data loader gives it: a tensor, a list or tuple of tensors, or a dictionary of tensors. Other nestings are not modelled. -/
inductive Batch where
  | tensor (a : Arr)
  | seq (ts : List Arr)
  | dict (d : List (PyStr × Arr))

/-- One row, as an element of a batch. -/
def rowSample (a : Arr) (i : Nat) : Py Sample :=
  match a.row i with
  | .error e => .error e
  | .ok r => .ok (.arr r)

/-- `for d in data` (logix/utils.py:246): iterating over a tensor gives its rows (a zero-dimensional one raises TypeError), over a list its elements, over a
dictionary its keys, which are strings. -/
def Batch.elems : Batch → Py (List Sample)
  | .tensor a =>
    match a.shape with
    | [] => .error .typeError
    | n :: _ => mapPy (rowSample a) (List.range n)
  | .seq ts => .ok (ts.map .arr)
  | .dict d => .ok (d.map fun _ => .unsupported)

/-- logix/lightning/callback.py:57-58 `on_train_batch_start`: `data_id_extractor` is a `DataIDGenerator` (line 37: the default, with its default mode
"hash"). -/
def lightningIds (H : List UInt8 → PyStr) (g : IdGen) (b : Batch) : IdGen × Py (List PyStr) :=
  match b.elems with
  | .error e => (g, .error e)
  | .ok l => g.call H l

/-- logix/huggingface/patch.py:192-199 `get_data_id` with `data_id="hash"`. Without the input key `for d in None` raises TypeError. -/
def hfIds (H : List UInt8 → PyStr) (g : IdGen) (inputKey : PyStr) (d : List (PyStr × Arr)) : IdGen × Py (List PyStr) :=
  match Dict.get? d inputKey with
  | none => (g, .error .typeError)
  | some a => lightningIds H g (.tensor a)

end Logix
