/-
Specification: the scores against what a program has stored, in every mode and for every group (C143).
-/
import Verif.Spec.SessionScores
import Verif.Spec.Formula

namespace Logix.Spec
variable {K : Type} [Field K]

/-- Row `i` of the scores of the total or of a group `k`, made of the arrays `x`, one per module. For sample `j` of a saved batch, whose log `e` has the
gradients of the batch: in mode dot it is the inner product of `x` with the gradient of the sample, over the modules of `k`. In mode l2, half of the inner product of `y`
with the gradient is subtracted; in mode cosine, the score is divided by the root of that product. Here `y` is any solution of the system `S` for the gradient of the sample,
of which there is one. -/
def ScoredModes (E : SEnv K) (body : List (SOp K)) (mods : PyStr → Nat) (keys : List PyStr) (saved : List (List PyStr × (Nat → List (Nat × Nat)))) (mode : Mode)
    (sqrt : K → K) (k : PyStr) (S : GLog K → Nat → PyStr → (List Nat → K) → Prop) (T : Tensor K) (i : Nat) (x : PyStr → List Nat → K) : Prop :=
  ∀ l u r, saved = l ++ u :: r → ∃ e : GLog K,
    (∀ nm ∈ keys, ∃ G, grad e nm = some G ∧ BatchGrad (allocs body) (E.kind (mods nm)) (u.2 (mods nm)) G) ∧
    ∀ j, j < u.1.length →
      (mode = .dot → T.el [i, (l.flatMap (·.1)).length + j] = against x e j (members keys k)) ∧
      (mode ≠ .dot → ∃ y : PyStr → List Nat → K, ∀ m ∈ keys, S e j m (y m)) ∧
      ∀ y : PyStr → List Nat → K, (∀ m ∈ keys, S e j m (y m)) →
        (mode = .l2 → T.el [i, (l.flatMap (·.1)).length + j] = against x e j (members keys k) - 1 / 2 * against y e j (members keys k)) ∧
        (mode = .cosine → T.el [i, (l.flatMap (·.1)).length + j] = against x e j (members keys k) / sqrt (against y e j (members keys k)))

end Logix.Spec
