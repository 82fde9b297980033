/-
Specification: several passes over the same data.
-/
import Verif.Spec.ModuleOrder
import Verif.Spec.Batching

namespace Logix.Spec
variable {K : Type}

/-- The calls of `n` passes. -/
def repeated (n : Nat) (calls : List (Plugin × StatCall K)) : List (Plugin × StatCall K) := (List.replicate n calls).flatten

/-- The second history logs every batch of the first one `n` times for the covariances, in any order. -/
def SameBatchesTimes (n : Nat) (calls calls' : List (Plugin × StatCall K)) : Prop := SameBatches (repeated n calls) calls'

/-- The second list of batches holds every sample of the first one `n` times, in any order and cut into batches in any way. -/
def SameSamplesTimes [Field K] (n : Nat) (xs ys : List (Tensor K)) : Prop := SameSamples (List.replicate n xs).flatten ys

/-- The inputs of the modules and the gradients of their outputs in the second run are those of the first, `n` times. -/
def SameActivationsTimes [Field K] (n : Nat) (keys : List PyStr) (mods mods' : PyStr → Nat) (ps ps' : List (Process K)) : Prop :=
  ∀ nm ∈ keys, (∃ xs ys, AllInputs (mods nm) ps xs ∧ AllInputs (mods' nm) ps' ys ∧ SameSamplesTimes n xs ys) ∧
    ∃ gs hs, AllOutGrads (mods nm) ps gs ∧ AllOutGrads (mods' nm) ps' hs ∧ SameSamplesTimes n gs hs

/-- The per-sample gradients in the second run are those of the first, `n` times. -/
def SameGradientsTimes [Field K] (n : Nat) (E E' : SEnv K) (keys : List PyStr) (mods mods' : PyStr → Nat) (ps ps' : List (Process K)) : Prop :=
  ∀ nm ∈ keys, ∃ gs hs, AllBatchGrads E (mods nm) ps gs ∧ AllBatchGrads E' (mods' nm) ps' hs ∧ SameSamplesTimes n gs hs

end Logix.Spec
