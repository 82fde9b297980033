/-
Arrays and nested dictionaries of arrays.
-/
import Verif.Model.Names

namespace Logix

/-- Element types of the arrays that can be stored (NumPy dtypes that PyTorch shares). In the metadata the dtype is
stored as `str(arr.dtype)` and read by `np.ndarray(..., dtype)`; this is the identity on these types. -/
inductive DType where
  | bool | uint8 | int8 | int16 | int32 | int64 | float16 | float32 | float64
  deriving DecidableEq, Repr

/-- `np.dtype(d).itemsize` -/
def DType.itemsize : DType → Nat
  | .bool => 1 | .uint8 => 1 | .int8 => 1 | .int16 => 2 | .int32 => 4 | .int64 => 8
  | .float16 => 2 | .float32 => 4 | .float64 => 8

theorem DType.itemsize_pos (d : DType) : 0 < d.itemsize := by cases d <;> decide

/-- Number of elements of an array of the given shape (`arr.size`); 1 for a zero-dimensional array. -/
def numel (shape : List Nat) : Nat := shape.foldl (· * ·) 1

/-- An array (`np.ndarray`, or a `torch.Tensor` on the CPU): element type, shape and the bytes of its elements in C order.
Strides are not modelled: `arr.ravel()` and `.clone()` produce C order. -/
@[ext] structure Arr where
  dtype : DType
  shape : List Nat
  bytes : List UInt8
  wf : bytes.length = numel shape * dtype.itemsize
  deriving DecidableEq

/-- `arr.nbytes` -/
def Arr.nbytes (a : Arr) : Nat := a.bytes.length

/-- `arr.size` -/
def Arr.size (a : Arr) : Nat := numel a.shape

/-- A Python nested dictionary with values of type `α` at the leaves. -/
inductive Nested (α : Type u) where
  | leaf (a : α)
  | node (d : List (PyStr × Nested α))

/-- A path into a nested dictionary. -/
abbrev Path := List PyStr

mutual
/-- logix/logging/mmap.py:23-28 `extract_arrays`: all arrays with their paths, in dictionary order. -/
def Nested.leaves : Nested α → List (Path × α)
  | .leaf a => [([], a)]
  | .node d => Nested.leavesList d
def Nested.leavesList : List (PyStr × Nested α) → List (Path × α)
  | [] => []
  | (k, v) :: rest => (v.leaves.map fun pa => (k :: pa.1, pa.2)) ++ Nested.leavesList rest
end

/-- logix/logging/mmap.py:31-36 `get_from_nested_dict`. A key that is absent is *skipped*, so the result
can be an inner dictionary, or the array at a proper prefix of the path (`key in arr` is `False` for a string key). -/
def getFromNested (d : Nested α) : Path → Nested α
  | [] => d
  | k :: ks =>
    match d with
    | .leaf a => getFromNested (.leaf a) ks
    | .node m =>
      match Dict.get? m k with
      | some v => getFromNested v ks
      | none => getFromNested (.node m) ks

/-- Plain lookup of a path (used in specifications): the array at exactly this path. -/
def Nested.lookup : Nested α → Path → Option α
  | .leaf a, [] => some a
  | .leaf _, _ :: _ => none
  | .node _, [] => none
  | .node m, k :: ks =>
    match Dict.get? m k with
    | some v => v.lookup ks
    | none => none

mutual
/-- Every dictionary inside has distinct keys (true of every Python dictionary). -/
def Nested.WF : Nested α → Prop
  | .leaf _ => True
  | .node d => (d.map Prod.fst).Nodup ∧ Nested.WFList d
def Nested.WFList : List (PyStr × Nested α) → Prop
  | [] => True
  | (_, v) :: rest => v.WF ∧ Nested.WFList rest
end

end Logix
