/-
Vocabulary for the properties of influence against a loader and of saved scores.
-/
import Verif.Model.InfluenceAll
import Verif.Spec.Influence

namespace Logix
variable {K : Type}
namespace Spec

/-- The batches hold the samples of log `e` with the given ids, in order; the order of the modules does not matter. -/
def Batches [Zero K] (batches : List (List PyStr × GLog K)) (ids : List PyStr) (e : GLog K) : Prop :=
  ids = batches.flatMap (·.1) ∧ ∀ l b r, batches = l ++ b :: r → ∀ j, j < b.1.length → SameRows b.2 j e ((l.flatMap (·.1)).length + j)

/-- The second object is reached from the first by calls of `compute_influence_all`; in between the state may be changed by anything. -/
inductive Later [Field K] (L : Lib K) (sqrt : K → K) : IFObj K → IFObj K → Prop where
  | refl (o : IFObj K) : Later L sqrt o o
  | state {o o' : IFObj K} (s : LState K) : Later L sqrt o o' → Later L sqrt o { o' with st := s }
  | call {o o' o'' : IFObj K} {ids src loader mode pre save hessian groups damping r} : Later L sqrt o o' →
      computeInfluenceAll L sqrt o' ids src loader mode pre save hessian groups damping = .ok (o'', r) → Later L sqrt o o''

/-- The object is reached from a new one, and these are the results that were returned by the calls with `save=True`, as they were when
they were returned. -/
inductive History [Field K] (L : Lib K) (sqrt : K → K) : IFObj K → List (IFResult K) → Prop where
  | new (s : LState K) : History L sqrt (.new s) []
  | state {o : IFObj K} {vs} (s : LState K) : History L sqrt o vs → History L sqrt { o with st := s } vs
  | unsaved {o o' : IFObj K} {vs ids src loader mode pre hessian groups damping r} : History L sqrt o vs →
      computeInfluenceAll L sqrt o ids src loader mode pre false hessian groups damping = .ok (o', r) → History L sqrt o' vs
  | empty {o o' : IFObj K} {vs ids src loader mode pre hessian groups damping} : History L sqrt o vs →
      computeInfluenceAll L sqrt o ids src loader mode pre true hessian groups damping = .ok (o', none) → History L sqrt o' vs
  | saved {o o' : IFObj K} {vs ids src loader mode pre hessian groups damping r} : History L sqrt o vs →
      computeInfluenceAll L sqrt o ids src loader mode pre true hessian groups damping = .ok (o', some r) →
      History L sqrt o' (vs ++ [o'.heap.deref r])

/-- A user's loop over batches of source samples: `compute_influence_all` with `save=True` for each of them, always with the same loader and arguments. -/
def saveAll [Field K] (L : Lib K) (sqrt : K → K) (loader : List (List PyStr × LogArg K)) (mode : Mode) (pre : Bool) (hessian : Hess) (groups : Option (List PyStr))
    (damping : Option K) : IFObj K → List (List PyStr × GLog K) → Py (IFObj K)
  | o, [] => .ok o
  | o, b :: bs =>
    match computeInfluenceAll L sqrt o b.1 (.dict b.2) loader mode pre true hessian groups damping with
    | .error e => .error e
    | .ok (o, _) => saveAll L sqrt loader mode pre hessian groups damping o bs

/-- The object's saved scores are those of the result `w`: the same ids in the same order, and the same tensor for the total and for every group. -/
def SavedAre (o : IFObj K) (groups : Option (List PyStr)) (w : IFResult K) : Prop :=
  ∃ a, o.saved = some a ∧ (o.heap.deref a).srcIds = w.srcIds ∧ (o.heap.deref a).tgtIds = w.tgtIds ∧
    ∀ k, k = ['t', 'o', 't', 'a', 'l'] ∨ k ∈ groups.getD [] → ∃ t, (o.heap.deref a).influence.get? k = some t ∧ w.influence.get? k = some t

end Spec
end Logix
