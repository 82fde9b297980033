/-
Specification: the same data, cut into batches and divided among processes in different ways.
-/
import Verif.Spec.DistSession

namespace Logix.Spec
variable {K : Type} [Field K]

/-- Sample `i` of a batch, as a batch of one. -/
def oneSample (t : Tensor K) (i : Nat) : Tensor K := Tensor.ofFn .cpu (1 :: t.shape.tail) fun idx => t.el (i :: idx.tail)

/-- The samples of a batch. -/
def samplesOf (t : Tensor K) : List (Tensor K) := (List.range (t.size 0)).map (oneSample t)

/-- Two lists of batches hold the same samples, in any order and cut into batches in any way. -/
def SameSamples (xs ys : List (Tensor K)) : Prop :=
  (∀ x ∈ xs ++ ys, 2 ≤ x.shape.length) ∧ (xs.flatMap samplesOf).Perm (ys.flatMap samplesOf)

/-- The inputs of the modules and the gradients of their outputs are the same samples in both runs. -/
def SameActivations (keys : List PyStr) (mods mods' : PyStr → Nat) (ps ps' : List (Process K)) : Prop :=
  ∀ nm ∈ keys, (∃ xs ys, AllInputs (mods nm) ps xs ∧ AllInputs (mods' nm) ps' ys ∧ SameSamples xs ys) ∧
    ∃ gs hs, AllOutGrads (mods nm) ps gs ∧ AllOutGrads (mods' nm) ps' hs ∧ SameSamples gs hs

/-- The per-sample gradients are the same samples in both runs. -/
def SameGradients (E E' : SEnv K) (keys : List PyStr) (mods mods' : PyStr → Nat) (ps ps' : List (Process K)) : Prop :=
  ∀ nm ∈ keys, ∃ gs hs, AllBatchGrads E (mods nm) ps gs ∧ AllBatchGrads E' (mods' nm) ps' hs ∧ SameSamples gs hs

/-- Two calls of `compute_influence` return the same scores. -/
def EqualScores (a b : Py (LState K × IFResult K)) : Prop :=
  ∃ u r T u' r' T', a = .ok (u, r) ∧ r.influence = .one T ∧ b = .ok (u', r') ∧ r'.influence = .one T' ∧ r.srcIds = r'.srcIds ∧ r.tgtIds = r'.tgtIds ∧
    T.shape = T'.shape ∧ T.data = T'.data

end Logix.Spec
