/-
Specification vocabulary for stored logs.
-/
import Verif.Model.Storage

namespace Logix.Spec

/-- No path of the write order is empty, equal to or a prefix of another one. -/
structure GoodOrder (order : List Path) : Prop where
  nonempty : order ≠ []
  paths_nonempty : ∀ p ∈ order, p ≠ []
  prefix_free : order.Pairwise fun p q => ¬ p <+: q ∧ ¬ q <+: p

/-- The sample has an array (not zero-dimensional) at every path of the write order. -/
def HasAll (order : List Path) (d : Nested Arr) : Prop :=
  ∀ p ∈ order, ∃ a, d.lookup p = some a ∧ a.shape ≠ []

/-- All watched arrays of the sample have the same element type. -/
def OneDtype (order : List Path) (d : Nested Arr) : Prop :=
  ∃ dt, ∀ p ∈ order, ∀ a, d.lookup p = some a → a.dtype = dt

/-- The watched arrays of a sample, in write order. -/
def arrays (order : List Path) (d : Nested Arr) : List Arr := order.filterMap d.lookup

/-- The samples one at a time, keeping for every id only its first occurrence. -/
def firstOcc (key : α → PyStr) (l : List α) : List α :=
  l.foldl (fun acc a => if key a ∈ acc.map key then acc else acc ++ [a]) []

/-- The keys of a dictionary, in order. -/
def names : Nested α → List PyStr
  | .leaf _ => []
  | .node d => Dict.keys d

/-- The first components of the write order, each at its first occurrence. -/
def topNames (order : List Path) : List PyStr := firstOcc id (order.filterMap List.head?)

/-- What a reader of the dataset can observe: the dataset holds exactly these samples, in this order. -/
structure Holds (ds : Dataset) (order : List Path) (samples : List (PyStr × Nested Arr)) : Prop where
  /-- `len(dataset)` -/
  len : ds.len = samples.length
  /-- nested view: the id, and an array exactly at the paths of the write order, equal to the sample's array
  (shape, dtype and bytes) -/
  nested : ∀ (i : Nat) (h : i < samples.length), ∃ nd, ds.getItem i = .ok (samples[i].1, nd) ∧
    ∀ p, nd.lookup p = if p ∈ order then samples[i].2.lookup p else none
  /-- flat view: the id and the concatenation of the arrays in write order -/
  flat : ∀ (i : Nat) (h : i < samples.length), ∃ a, ds.getItemFlat i = .ok (samples[i].1, a) ∧
    a.bytes = (arrays order samples[i].2).flatMap Arr.bytes ∧
    a.shape = [((arrays order samples[i].2).map Arr.size).sum] ∧
    ∀ b ∈ arrays order samples[i].2, b.dtype = a.dtype
  /-- the modules come in the order of the write order -/
  keys : ∀ i id nd, ds.getItem i = .ok (id, nd) → names nd = topNames order
  /-- no further items -/
  outside : ∀ i, samples.length ≤ i → ds.getItem i = .error .indexError

end Logix.Spec

namespace Logix.Spec

/-- All arrays of the nested dictionary sit at depth `n` (logs have depth 2: module name, then log type). -/
def AtDepth : Nat → Nested α → Prop
  | 0, .leaf _ => True
  | 0, .node _ => False
  | _ + 1, .leaf _ => False
  | n + 1, .node d => ∀ kv ∈ d, AtDepth n kv.2

end Logix.Spec
