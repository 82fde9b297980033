/-
What C113 says: self-influence computed batch by batch.
-/
import Verif.Spec.InfluenceAll

namespace Logix
variable {K : Type}
namespace Spec

/-- `compute_self_influence` is called with one batch after the other and the same arguments; these are the results. -/
inductive SelfRun [Field K] (L : Lib K) (pre : Bool) (hessian : Hess) (groups : Option (List PyStr)) (damping : Option K) :
    LState K → List (List PyStr × GLog K) → List (SelfResult K) → Prop where
  | nil (s : LState K) : SelfRun L pre hessian groups damping s [] []
  | cons {s s' : LState K} {b : List PyStr × GLog K} {bs : List (List PyStr × GLog K)} {v : SelfResult K} {vs : List (SelfResult K)} :
      computeSelf L s b.1 (.dict b.2) pre hessian groups damping = .ok (s', v) → SelfRun L pre hessian groups damping s' bs vs →
      SelfRun L pre hessian groups damping s (b :: bs) (v :: vs)

/-- The results of the batches, one after the other, are the ids and the scores of one result. -/
def SelfJoined [Zero K] (vs : List (SelfResult K)) (groups : Option (List PyStr)) (w : SelfResult K) : Prop :=
  w.srcIds = vs.flatMap (·.srcIds) ∧ ∀ k, k = ['t', 'o', 't', 'a', 'l'] ∨ k ∈ groups.getD [] → ∃ x, w.influence.get? k = some x ∧ x.shape = [w.srcIds.length] ∧
    ∀ before v after, vs = before ++ v :: after → ∃ t, v.influence.get? k = some t ∧ t.shape = [v.srcIds.length] ∧
      ∀ j, j < v.srcIds.length → x.el [(before.flatMap (·.srcIds)).length + j] = t.el [j]

end Spec
end Logix
