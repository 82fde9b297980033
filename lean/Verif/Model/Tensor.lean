/-
Tensors of numbers: the PyTorch operations used by the statistics and by influence computation.
-/
import Verif.Model.Nested
import Verif.Lemmas.Saver
import Mathlib.Algebra.BigOperators.Group.Finset.Basic
import Mathlib.Algebra.Field.Defs

namespace Logix

/-- Where a tensor lives (`tensor.device`). -/
inductive Dev where
  | cpu
  | cuda (n : Nat)
  deriving DecidableEq

/-- All index tuples of a shape, in C order. -/
def indices : List Nat → List (List Nat)
  | [] => [[]]
  | n :: s => (List.range n).flatMap fun i => (indices s).map (i :: ·)

/-- Is this index tuple inside the shape? -/
def inRange : List Nat → List Nat → Bool
  | [], [] => true
  | n :: s, i :: idx => decide (i < n) && inRange s idx
  | _, _ => false

/-- Position of an index tuple in C order. -/
def ravel : List Nat → List Nat → Nat
  | _ :: s, i :: idx => i * numel s + ravel s idx
  | _, _ => 0

theorem indices_length : ∀ s, (indices s).length = numel s
  | [] => rfl
  | n :: s => by
    simp only [indices, List.length_flatMap, List.length_map, indices_length s, numel_cons]
    simp

/-- `torch.Tensor` with numbers from `K`: device, shape and elements in C order. Strides, dtypes, rounding and autograd are not
modelled. -/
@[ext] structure Tensor (K : Type) where
  dev : Dev
  shape : List Nat
  data : List K
  wf : data.length = numel shape
  deriving DecidableEq

namespace Tensor
variable {K : Type}

/-- The tensor with the given entries. -/
def ofFn (dev : Dev) (shape : List Nat) (f : List Nat → K) : Tensor K :=
  ⟨dev, shape, (indices shape).map f, by rw [List.length_map, indices_length]⟩

/-- Tensors with one to four and with six dimensions, by their entries. -/
def ofFn1 [Zero K] (dev : Dev) (a : Nat) (f : Nat → K) : Tensor K :=
  ofFn dev [a] fun | [i] => f i | _ => 0
def ofFn2 [Zero K] (dev : Dev) (a b : Nat) (f : Nat → Nat → K) : Tensor K :=
  ofFn dev [a, b] fun | [i, j] => f i j | _ => 0
def ofFn3 [Zero K] (dev : Dev) (a b c : Nat) (f : Nat → Nat → Nat → K) : Tensor K :=
  ofFn dev [a, b, c] fun | [i, j, k] => f i j k | _ => 0
def ofFn4 [Zero K] (dev : Dev) (a b c d : Nat) (f : Nat → Nat → Nat → Nat → K) : Tensor K :=
  ofFn dev [a, b, c, d] fun | [i, j, k, l] => f i j k l | _ => 0
def ofFn6 [Zero K] (dev : Dev) (a b c d e g : Nat) (f : Nat → Nat → Nat → Nat → Nat → Nat → K) : Tensor K :=
  ofFn dev [a, b, c, d, e, g] fun | [i, j, k, l, m, n] => f i j k l m n | _ => 0

/-- Entry at an index tuple; 0 outside the shape. -/
def el [Zero K] (t : Tensor K) (idx : List Nat) : K :=
  if inRange t.shape idx then t.data.getD (ravel t.shape idx) 0 else 0

/-- `t.size(d)`; 0 if there is no such dimension (PyTorch raises). -/
def size (t : Tensor K) (d : Nat) : Nat := t.shape.getD d 0

/-- `t.to(device=d)` -/
def onDev (t : Tensor K) (d : Dev) : Tensor K := { t with dev := d }

/-- `t.reshape(shape)` (and `view` of contiguous tensors): same elements in C order; another number of elements raises. -/
def reshape (t : Tensor K) (shape : List Nat) : Py (Tensor K) :=
  if h : numel t.shape = numel shape then .ok ⟨t.dev, shape, t.data, t.wf.trans h⟩ else .error .runtimeError

/-- `t.reshape(*pre, -1, *post)`: the remaining dimension is inferred; raises if it is ambiguous or not integral. -/
def reshapeInfer (t : Tensor K) (pre post : List Nat) : Py (Tensor K) :=
  if numel pre * numel post = 0 then .error .runtimeError
  else t.reshape (pre ++ (numel t.shape / (numel pre * numel post)) :: post)

/-- `torch.zeros(shape, device=dev)` -/
def zeros [Zero K] (dev : Dev) (shape : List Nat) : Tensor K := ofFn dev shape fun _ => 0

/-- `t.sum(dim=0)` of a two-dimensional tensor. -/
def sum0 [Semiring K] (t : Tensor K) : Tensor K :=
  ofFn1 t.dev (t.size 1) fun j => ∑ i ∈ Finset.range (t.size 0), t.el [i, j]

/-- `t.add_(u)`, for equal shapes on the same device. Simplification: broadcasting is not modelled, unequal shapes raise. -/
def add_ [Semiring K] (t u : Tensor K) : Py (Tensor K) :=
  if t.dev = u.dev ∧ t.shape = u.shape then .ok (ofFn t.dev t.shape fun idx => t.el idx + u.el idx) else .error .runtimeError

/-- `t.addmm_(d.t(), d)` for a two-dimensional `d`. -/
def addmmT_ [Semiring K] (t d : Tensor K) : Py (Tensor K) :=
  if t.dev = d.dev ∧ t.shape = [d.size 1, d.size 1] then
    .ok (ofFn2 t.dev (d.size 1) (d.size 1) fun i j => t.el [i, j] + ∑ k ∈ Finset.range (d.size 0), d.el [k, i] * d.el [k, j])
  else .error .runtimeError

/-- `t / c` with a number. -/
def divNum [Field K] (t : Tensor K) (c : K) : Tensor K := ofFn t.dev t.shape fun idx => t.el idx / c

end Tensor
end Logix
