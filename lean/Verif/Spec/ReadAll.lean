/-
What a user relies on when a loop over the log loader reaches its end, whatever is in the directory.
-/
import Verif.Model.Collate
import Verif.Spec.Storage

namespace Logix.Spec

/-- The loop went over all samples of the directory, in order, in batches of `b`, and every one of them could be read. -/
structure ReadAll (ds : Dataset) (b : Nat) (read : Nat → PyStr → Prop) (bs : List (List PyStr)) : Prop where
  /-- the ids are those of the metadata files, in order -/
  ids : bs.flatten = ds.index.map Prod.fst
  /-- every sample could be read, under its id -/
  items : ∀ i (h : i < ds.index.length), read i ds.index[i].1
  /-- batches are full except the last one, none is empty -/
  size : ∀ j (hj : j < bs.length), bs[j].length = min b (ds.index.length - j * b) ∧ bs[j] ≠ []

/-- Every tensor of a batch has a row for every id of the batch. -/
def RowPerId (bs : List (List PyStr × List (PyStr × Nested Arr))) : Prop :=
  ∀ x ∈ bs, ∀ p t, (Nested.node x.2).lookup p = some t → t.shape.head? = some x.1.length

end Logix.Spec
