/-
Specification vocabulary for logging sessions.
-/
import Verif.Spec.Storage
import Verif.Model.Saver

namespace Logix.Spec

/-- A sample as seen by a user: for every path the array logged there, if any. -/
abbrev View := Path → Option Arr

/-- The dataset holds exactly the given samples, in this order: nested view, flat view, length, modules in the order of the write order,
nothing else. -/
structure Stores (ds : Dataset) (order : List Path) (samples : List (PyStr × View)) : Prop where
  len : ds.len = samples.length
  nested : ∀ (i : Nat) (h : i < samples.length), ∃ nd, ds.getItem i = .ok (samples[i].1, nd) ∧
    ∀ p, nd.lookup p = if p ∈ order then samples[i].2 p else none
  flat : ∀ (i : Nat) (h : i < samples.length), ∃ a, ds.getItemFlat i = .ok (samples[i].1, a) ∧
    a.bytes = (order.filterMap samples[i].2).flatMap Arr.bytes ∧
    a.shape = [((order.filterMap samples[i].2).map Arr.size).sum] ∧
    ∀ b ∈ order.filterMap samples[i].2, b.dtype = a.dtype
  keys : ∀ i id nd, ds.getItem i = .ok (id, nd) → names nd = topNames order
  outside : ∀ i, samples.length ≤ i → ds.getItem i = .error .indexError

/-- Row `i` of every tensor of a log. -/
def rowView (log : List (PyStr × Nested Arr)) (i : Nat) : View := fun p =>
  ((Nested.node log).lookup p).bind fun t => (t.row i).toOption

/-- The samples of a saved batch: the i-th id with the i-th row of every tensor. -/
def batchViews (ids : List PyStr) (log : List (PyStr × Nested Arr)) : List (PyStr × View) :=
  ids.zipIdx.map fun x => (x.1, rowView log x.2)

/-- All samples saved by a list of operations, in order. -/
def history : List SaverOp → List (PyStr × View)
  | [] => []
  | .save ids log :: ops => batchViews ids log ++ history ops
  | .finalize :: ops => history ops

/-- The part of a schedule that concerns one rank. -/
def opsOf (r : Nat) (sched : List (Nat × SaverOp)) : List SaverOp :=
  (sched.filter fun x => x.1 = r).map Prod.snd

/-- A batch as the hooks produce it: arrays at depth `n` (2 in logix), dictionaries with distinct keys, at least one row per id,
a watched array of at least two dimensions (batch and one more) of one dtype at every path of the write order, not all of them empty. -/
structure GoodBatch (order : List Path) (n : Nat) (ids : List PyStr) (log : List (PyStr × Nested Arr)) : Prop where
  wf : (Nested.node log).WF
  depth : AtDepth n (Nested.node log)
  rows : ∀ p t, (Nested.node log).lookup p = some t → ∃ b s, t.shape = b :: s ∧ ids.length ≤ b
  watched : ∀ p ∈ order, ∃ t, (Nested.node log).lookup p = some t ∧ 2 ≤ t.shape.length
  oneDtype : ∃ dt, ∀ p ∈ order, ∀ t, (Nested.node log).lookup p = some t → t.dtype = dt
  nonempty : ∃ p ∈ order, ∃ t, (Nested.node log).lookup p = some t ∧ numel t.shape.tail ≠ 0

/-- A good operation: a save of a good batch, or a finalize. -/
def GoodOp (order : List Path) (n : Nat) : SaverOp → Prop
  | .save ids log => GoodBatch order n ids log
  | .finalize => True

/-- A newer view on top of an older one. -/
def overlay (new old : View) : View := fun p => (new p).or (old p)

/-- Record row `i`, `i+1`, ... of a log under the given ids; an id already present keeps its place and its arrays are replaced
path by path. -/
def recordFrom (log : List (PyStr × Nested Arr)) : Nat → List PyStr → Dict PyStr View → Dict PyStr View
  | _, [], d => d
  | i, id :: ids, d =>
    recordFrom log (i + 1) ids (Dict.set d id (overlay (rowView log i) ((Dict.get? d id).getD fun _ => none)))

/-- The effect of an operation on the samples waiting in memory, before a flush. -/
def record (d : Dict PyStr View) : SaverOp → Dict PyStr View
  | .save ids log => recordFrom log 0 ids d
  | .finalize => d

/-- Samples as a reader sees them. -/
def views (es : List (PyStr × Nested Arr)) : List (PyStr × View) := es.map fun e => (e.1, e.2.lookup)

/-- Number of array elements in a nested dictionary. -/
def elements (d : Nested Arr) : Nat := (d.leaves.map fun pa => pa.2.size).sum

/-- Number of array elements waiting in a saver's buffer. -/
def unflushed (s : Saver) : Nat := (s.items.map fun e => elements e.2).sum

end Logix.Spec
