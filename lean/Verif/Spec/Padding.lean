/-
Specification: sequences with padding. A mask of zeros and ones marks the tokens of each sample; the other positions are padding.
-/
import Verif.Spec.SessionInfluence
import Verif.Spec.Determined

namespace Logix.Spec
variable {K : Type}

/-- A mask of zeros and ones over all dimensions of the data but the last, such as `[batch, seq]` for `[batch, seq, dim]`. -/
def TokenMask [Semiring K] (mk x : Tensor K) : Prop :=
  2 ≤ x.shape.length ∧ mk.shape = x.shape.dropLast ∧ ∀ p, mk.el p = 0 ∨ mk.el p = 1

/-- The rows of the data at the tokens of sample `n`. -/
def sampleTokens [Semiring K] [DecidableEq K] (mk x : Tensor K) (n : Nat) : List (Nat → K) :=
  ((indices mk.shape.tail).filter fun p => mk.el (n :: p) = 1).map fun p j => x.el (n :: (p ++ [j]))

/-- The rows of the data at all tokens. -/
def tokens [Semiring K] [DecidableEq K] (mk x : Tensor K) : List (Nat → K) := (List.range (x.size 0)).flatMap (sampleTokens mk x)

/-- The data is zero at the padding. -/
def ZeroPadded [Semiring K] (mk x : Tensor K) : Prop := ∀ p i, mk.el p = 0 → x.el (p ++ [i]) = 0

/-- `ms` are the masks and the values of the tensors that a program notes, and the masks mark tokens. -/
def MaskedValues [Semiring K] (tensors : List (TObj K)) (ns : List (Nat × Option (Tensor K))) (ms : List (Tensor K × Tensor K)) : Prop :=
  List.Forall₂ (fun u a => ∃ o, tensors[u.1]? = some o ∧ u.2 = some a.1 ∧ a.2 = o.val ∧ TokenMask a.1 a.2) ns ms

/-- `T` is the mean of the rows at all tokens. -/
def IsTokenMean [Field K] [DecidableEq K] (ms : List (Tensor K × Tensor K)) (T : Tensor K) : Prop :=
  ∃ W, T.shape = [W] ∧ (∀ a ∈ ms, a.2.shape.getLastD 0 = W) ∧ ∀ i, i < W → T.el [i] =
    ((ms.flatMap fun a => tokens a.1 a.2).map fun r => r i).sum / ((ms.flatMap fun a => tokens a.1 a.2).length : K)

/-- `T` is the second moment of the rows at all tokens: the average of their outer products. -/
def IsTokenMoment [Field K] [DecidableEq K] (ms : List (Tensor K × Tensor K)) (T : Tensor K) : Prop :=
  ∃ W, T.shape = [W, W] ∧ (∀ a ∈ ms, a.2.shape.getLastD 0 = W) ∧ ∀ i j, i < W → j < W → T.el [i, j] =
    ((ms.flatMap fun a => tokens a.1 a.2).map fun r => r i * r j).sum / ((ms.flatMap fun a => tokens a.1 a.2).length : K)

/-- The mask, if there is one, has no negative entries and some positive one. -/
def NonnegMask [Zero K] [LE K] (mask : Option (Tensor K)) : Prop := ∀ mk, mask = some mk → (∀ x ∈ mk.data, 0 ≤ x) ∧ ∃ x ∈ mk.data, x ≠ 0

/-- Two batches with masks have the same samples with the same tokens; only the padding is different. -/
def SameTokens [Semiring K] [DecidableEq K] (a a' : Tensor K × Tensor K) : Prop :=
  a.2.size 0 = a'.2.size 0 ∧ a.2.shape.getLastD 0 = a'.2.shape.getLastD 0 ∧ ∀ n, sampleTokens a.1 a.2 n = sampleTokens a'.1 a'.2 n

/-- Two programs note data with the same tokens. -/
def SameNotes [Semiring K] [DecidableEq K] (tensors tensors' : List (TObj K)) (ns ns' : List (Nat × Option (Tensor K))) : Prop :=
  ∃ ms ms', MaskedValues tensors ns ms ∧ MaskedValues tensors' ns' ms' ∧ List.Forall₂ SameTokens ms ms'

/-- Two programs note output gradients with the same tokens, that are zero at the padding. -/
def SameGradNotes [Semiring K] [DecidableEq K] (tensors tensors' : List (TObj K)) (ns ns' : List (Nat × Option (Tensor K))) : Prop :=
  ∃ ms ms', MaskedValues tensors ns ms ∧ MaskedValues tensors' ns' ms' ∧ List.Forall₂ SameTokens ms ms' ∧ ∀ a ∈ ms ++ ms', ZeroPadded a.1 a.2

/-- Two uses of a linear layer, each given by input and output gradient, that are the same up to padding. -/
def SameUse [Semiring K] [DecidableEq K] (tensors tensors' : List (TObj K)) (u u' : Nat × Nat) : Prop :=
  ∃ x g x' g' mk mk', tensors[u.1]? = some x ∧ tensors[u.2]? = some g ∧ tensors'[u'.1]? = some x' ∧ tensors'[u'.2]? = some g' ∧
    TokenMask mk x.val ∧ TokenMask mk g.val ∧ TokenMask mk' x'.val ∧ TokenMask mk' g'.val ∧
    SameTokens (mk, x.val) (mk', x'.val) ∧ SameTokens (mk, g.val) (mk', g'.val) ∧ ZeroPadded mk g.val ∧ ZeroPadded mk' g'.val

/-- Two sessions that log the same tokens for KFAC with any padding. -/
structure SameKfacTokens [Field K] [DecidableEq K] (E : SEnv K) (s : Sess K) (mods : PyStr → Nat) (keys : List PyStr) (mask mask' : Option (Tensor K)) (body body' : List (SOp K)) : Prop where
  watched : ∀ nm ∈ keys, Watches s (mods nm) nm ∧ E.kind (mods nm) = .linear
  used : ∀ nm ∈ keys, notes (input (mods nm)) (mods nm) ⟨mask, [], [], []⟩ body ≠ [] ∧ notes outGrad (mods nm) ⟨mask, [], [], []⟩ body ≠ []
  forward : ∀ nm ∈ keys, SameNotes (allocs body) (allocs body') (notes (input (mods nm)) (mods nm) ⟨mask, [], [], []⟩ body)
    (notes (input (mods nm)) (mods nm) ⟨mask', [], [], []⟩ body')
  backward : ∀ nm ∈ keys, SameGradNotes (allocs body) (allocs body') (notes outGrad (mods nm) ⟨mask, [], [], []⟩ body)
    (notes outGrad (mods nm) ⟨mask', [], [], []⟩ body')

/-- Two sessions that log the same tokens for the empirical Fisher matrix with any padding. -/
structure SameRawTokens [Field K] [DecidableEq K] (E : SEnv K) (s : Sess K) (mods : PyStr → Nat) (keys : List PyStr) (mask mask' : Option (Tensor K)) (body body' : List (SOp K)) : Prop where
  watched : ∀ nm ∈ keys, Watches s (mods nm) nm ∧ E.kind (mods nm) = .linear
  used : ∀ nm ∈ keys, notes batchGrads (mods nm) ⟨mask, [], [], []⟩ body ≠ []
  grads : ∀ nm ∈ keys, List.Forall₂ (fun u u' => List.Forall₂ (SameUse (allocs body) (allocs body')) u.1 u'.1)
    (notes batchGrads (mods nm) ⟨mask, [], [], []⟩ body) (notes batchGrads (mods nm) ⟨mask', [], [], []⟩ body')

/-- Both are tensors, of the same shape and with the same entries. -/
def SameTensor [Zero K] (a a' : Option (Tensor K)) : Prop :=
  ∃ t t', a = some t ∧ a' = some t' ∧ t.shape = t'.shape ∧ ∀ idx, inRange t.shape idx = true → t.el idx = t'.el idx

end Logix.Spec
