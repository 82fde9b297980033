/-
Specification of what iterating the log data loader yields.
-/
import Verif.Model.Collate
import Verif.Model.Saver
import Verif.Spec.Storage

namespace Logix.Spec

/-- Every sample has an array at every path of the write order, and at each path all samples agree on shape and element type. -/
def Homogeneous (order : List Path) (samples : List (PyStr × Nested Arr)) : Prop :=
  ∀ p ∈ order, ∃ (s : List Nat) (dt : DType), ∀ x ∈ samples, ∃ a, x.2.lookup p = some a ∧ a.shape = s ∧ a.dtype = dt

/-- What a user observes from `for ids, logs in loader` with batch size `b`. -/
structure Yields (order : List Path) (samples : List (PyStr × Nested Arr)) (b : Nat)
    (bs : List (List PyStr × List (PyStr × Nested Arr))) : Prop where
  /-- every sample exactly once, in order -/
  ids : (bs.map Prod.fst).flatten = samples.map Prod.fst
  /-- batches are full except the last one, none is empty -/
  size : ∀ j (hj : j < bs.length), bs[j].1.length = min b (samples.length - j * b) ∧ bs[j].1 ≠ []
  /-- row `i` of the tensor at any path is the array of the `i`-th id of the batch -/
  rows : ∀ j (hj : j < bs.length) i (hi : i < bs[j].1.length), ∃ h : j * b + i < samples.length,
    bs[j].1[i] = samples[j * b + i].1 ∧
    ∀ p ∈ order, ∃ t a, (Nested.node bs[j].2).lookup p = some t ∧ t.shape.head? = some bs[j].1.length ∧
      samples[j * b + i].2.lookup p = some a ∧ t.row i = .ok a
  /-- nothing else is served -/
  only : ∀ j (hj : j < bs.length) p, p ∉ order → (Nested.node bs[j].2).lookup p = none
  /-- the modules come in the order of the write order -/
  names : ∀ j (hj : j < bs.length), Dict.keys bs[j].2 = topNames order

/-- The same for the flat view: row `i` holds the watched arrays of the `i`-th id, concatenated in write order. -/
structure YieldsFlat (order : List Path) (samples : List (PyStr × Nested Arr)) (b : Nat)
    (bs : List (List PyStr × Arr)) : Prop where
  ids : (bs.map Prod.fst).flatten = samples.map Prod.fst
  size : ∀ j (hj : j < bs.length), bs[j].1.length = min b (samples.length - j * b) ∧ bs[j].1 ≠ [] ∧
    bs[j].2.shape.head? = some bs[j].1.length
  rows : ∀ j (hj : j < bs.length) i (hi : i < bs[j].1.length), ∃ h : j * b + i < samples.length,
    bs[j].1[i] = samples[j * b + i].1 ∧
    ∃ r, bs[j].2.row i = .ok r ∧ r.bytes = (arrays order samples[j * b + i].2).flatMap Arr.bytes ∧
      r.shape = [((arrays order samples[j * b + i].2).map Arr.size).sum] ∧ ∀ a ∈ arrays order samples[j * b + i].2, a.dtype = r.dtype

end Logix.Spec
