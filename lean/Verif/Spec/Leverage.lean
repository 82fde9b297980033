/-
Vocabulary for: the self-influence of samples that are part of the data.
-/
import Verif.Spec.SessionEkfac

namespace Logix.Spec
variable {K : Type} [Field K]

/-- The gradients of sample `i` of the log are those of samples of the program, in every module. -/
def OfProgram (E : SEnv K) (body : List (SOp K)) (keys : List PyStr) (mods : PyStr → Nat) (d : GLog K) (i : Nat) : Prop :=
  ∀ nm ∈ keys, ∃ arrived ∈ (notes batchGrads (mods nm) ⟨none, [], [], []⟩ body).map Prod.fst, ∃ T k, BatchGrad (allocs body) (E.kind (mods nm)) arrived T ∧
    k < T.size 0 ∧ ∃ g, grad d nm = some g ∧ g.shape.tail = T.shape.tail ∧ ∀ idx, g.el (i :: idx) = T.el (k :: idx)

/-- No module has gradients for more than `N` samples in the program. -/
def AtMostSamples (E : SEnv K) (body : List (SOp K)) (keys : List PyStr) (mods : PyStr → Nat) (N : Nat) : Prop :=
  ∀ nm ∈ keys, ∀ gs, GradsOf E body none (mods nm) gs → (gs.map fun g => g.size 0).sum ≤ N

end Logix.Spec
