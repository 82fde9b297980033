/-
Numbers and their bytes: what connects logs of tensors (logix/logging/logger.py, analysis) with the arrays that are stored and loaded.
-/
import Verif.Model.Frontend
import Verif.Model.Influence

namespace Logix
variable {K : Type}

/-- The memory layout of numbers, a parameter: how PyTorch writes a number of a given element type, and how it reads one. (Not modelled: rounding.
The theorems ask that the numbers which occur can be read back.) -/
structure Codec (K : Type) where
  enc : (d : DType) → K → {b : List UInt8 // b.length = d.itemsize}
  dec : DType → List UInt8 → K

/-- logix/utils.py:67-78 `to_numpy`: the array of a tensor of element type `d`. -/
def Codec.arr (C : Codec K) (d : DType) (t : Tensor K) : Arr :=
  ⟨d, t.shape, t.data.flatMap fun x => (C.enc d x).1, by
    have h : ∀ l : List K, (l.flatMap fun x => (C.enc d x).1).length = l.length * d.itemsize := by
      intro l
      induction l with
      | nil => simp
      | cons x xs ih => rw [List.flatMap_cons, List.length_append, ih, (C.enc d x).2, List.length_cons, Nat.succ_mul, Nat.add_comm]
    rw [h, t.wf]⟩

/-- The tensor over an array in memory (`torch.Tensor` of a NumPy array, logix/logging/log_loader_utils.py:121-136); it is on the CPU. -/
def Codec.tensor (C : Codec K) (a : Arr) : Tensor K :=
  ⟨.cpu, a.shape, (List.range (numel a.shape)).map fun i => C.dec a.dtype ((a.bytes.drop (i * a.dtype.itemsize)).take a.dtype.itemsize), by simp⟩

/-- A log of tensors as the saver sees it (logix/logging/log_saver.py:39-56). Simplification: all tensors have the same element type. -/
def Codec.arrs (C : Codec K) (d : DType) (log : GLog K) : List (PyStr × Nested Arr) :=
  log.map fun m => (m.1, .node (m.2.map fun t => (t.1, .leaf (C.arr d t.2))))

/-- The array under a key of a module; there are no dictionaries at this depth (a dictionary counts as an empty array here). -/
def Nested.arr : Nested Arr → Arr
  | .leaf a => a
  | .node _ => ⟨.uint8, [0], [], rfl⟩

/-- A batch of loaded logs as tensors. Loaded logs have depth two, as their paths do (an array directly under a module name would count as an empty
dictionary here). -/
def Codec.log (C : Codec K) (log : List (PyStr × Nested Arr)) : GLog K :=
  log.map fun m => (m.1, match m.2 with
    | .leaf _ => []
    | .node sub => sub.map fun t => (t.1, C.tensor t.2.arr))

/-- A batch of the loader as `compute_influence_all` gets it (logix/analysis/influence_function.py:267-278). -/
def LogBatch.arg (C : Codec K) : LogBatch → List PyStr × LogArg K
  | .nested ids log => (ids, .dict (C.log log))
  | .flat ids rows => (ids, .flat (C.tensor rows))

/-- What happens in a logging run: the log of a batch is saved with its ids, or the saver is finalized. -/
inductive LogOp (K : Type) where
  | save (ids : List PyStr) (log : GLog K)
  | finalize

/-- The operation on the saver. -/
def LogOp.saver (C : Codec K) (d : DType) : LogOp K → SaverOp
  | .save ids log => .save ids (C.arrs d log)
  | .finalize => .finalize

end Logix
