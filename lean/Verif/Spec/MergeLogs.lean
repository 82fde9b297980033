/-
Specification of merging logs.
-/
import Verif.Model.MergeLogs
import Verif.Spec.Saver

namespace Logix.Spec

/-- The rows of a tensor. -/
def rowsOf (t : Arr) : List Arr := (List.range (t.shape.headD 0)).filterMap fun i => (t.row i).toOption

/-- The rows of the tensor a log has at a path; no rows if it has none. -/
def rowsAt (log : List (PyStr × Nested Arr)) (p : Path) : List Arr :=
  match (Nested.node log).lookup p with
  | none => []
  | some t => rowsOf t

/-- Logs that can be merged: dictionaries of the same depth, and at every path all tensors have a batch dimension and agree on the
other dimensions and the element type. -/
structure Mergeable (n : Nat) (logs : List (List PyStr × List (PyStr × Nested Arr))) : Prop where
  wf : ∀ l ∈ logs, (Nested.node l.2).WF
  depth : ∀ l ∈ logs, AtDepth (n + 1) (Nested.node l.2)
  shape : ∀ p, ∃ (s : List Nat) (dt : DType), ∀ l ∈ logs, ∀ t, (Nested.node l.2).lookup p = some t →
    ∃ b, t.shape = b :: s ∧ t.dtype = dt

end Logix.Spec
