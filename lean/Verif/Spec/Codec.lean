/-
Vocabulary for the way of gradients from a logging run to influence scores.
-/
import Verif.Model.Codec
import Verif.Spec.Saver
import Verif.Spec.InfluenceAll
import Verif.Model.Frontend

namespace Logix.Spec
variable {K : Type}

/-- `log[m][t]`, if it is there. -/
def item (log : GLog K) (m t : PyStr) : Option (Tensor K) := (Dict.get? log m).bind fun sub => Dict.get? sub t

/-- The batches that a run saved. -/
def saves : List (LogOp K) → List (List PyStr × GLog K)
  | [] => []
  | .save ids log :: ops => (ids, log) :: saves ops
  | .finalize :: ops => saves ops

/-- What is logged: pairs of a module name and a log type, none twice, with the gradient of every module among them; `shape m t` is the shape for one
sample, which has at least one dimension; not all of them are empty. -/
structure LogPlan (order : List Path) (shape : PyStr → PyStr → List Nat) : Prop where
  nodup : order.Nodup
  pairs : ∀ p ∈ order, ∃ m t, p = [m, t]
  grads : ∀ m t, [m, t] ∈ order → [m, LogType.name .grad] ∈ order
  dims : ∀ m t, [m, t] ∈ order → shape m t ≠ []
  some : ∃ m t, [m, t] ∈ order ∧ numel (shape m t) ≠ 0

/-- A batch of such logs: every tensor has one row per id, and the numbers to be stored have an exact representation. -/
structure PlanBatch (C : Codec K) (d : DType) (order : List Path) (shape : PyStr → PyStr → List Nat) (ids : List PyStr) (log : GLog K) : Prop where
  modules : (Dict.keys log).Nodup
  types : ∀ m ∈ log, (Dict.keys m.2).Nodup
  rows : ∀ m t x, item log m t = Option.some x → ∃ s, x.shape = ids.length :: s
  watched : ∀ m t, [m, t] ∈ order → ∃ x, item log m t = Option.some x ∧ x.shape = ids.length :: shape m t
  exact : ∀ m t x, [m, t] ∈ order → item log m t = Option.some x → ∀ c ∈ x.data, C.dec d (C.enc d c).1 = c

/-- A logging run: one process with at most one worker, in a directory without logs of an earlier run, that saves such batches, with ids that are
all different. -/
structure LogRun (C : Codec K) (d : DType) (order : List Path) (shape : PyStr → PyStr → List Nat) (fs : FS) (workers : Nat) (ops : List (LogOp K)) : Prop where
  plan : LogPlan order shape
  files : (Dict.keys fs).Nodup
  clean : NoLogs fs
  workers : workers ≤ 1
  batches : ∀ b ∈ saves ops, PlanBatch C d order shape b.1 b.2
  ids : ((saves ops).flatMap (·.1)).Nodup

/-- The run when the batches have been saved, with a flush threshold, and finalized at the end (and wherever else the user did so). -/
def storedRun (C : Codec K) (d : DType) (order : List Path) (fs : FS) (workers : Nat) (threshold : Int) (ops : List (LogOp K)) : Front :=
  runFront order ((ops.map (LogOp.saver C d) ++ [SaverOp.finalize]).map FrontOp.saver) (Front.init fs 0 workers threshold)

/-- `e` is the log that has all the gradients of the run in memory: one row per id, those that were saved under this id. -/
structure InMemory [Zero K] (order : List Path) (ops : List (LogOp K)) (ids : List PyStr) (e : GLog K) : Prop where
  labelled : Labelled ids e
  modules : ∀ m ∈ Dict.keys e, [m, LogType.name .grad] ∈ order
  rows : Batches (saves ops) ids e

/-- The write order for the gradients of these modules. -/
def gradOrder (mods : List PyStr) : List Path := mods.map fun m => [m, LogType.name .grad]

/-- `model_module["path"]` of the state lists the gradients of these modules. -/
def PathIs (s : LState K) (mods : List PyStr) : Prop :=
  ∃ mm, s.getAttr nModelModule = .ok mm ∧ Dict.get? mm ['p', 'a', 't', 'h'] = Option.some (.leaf (.paths (mods.map fun m => (m, LogType.name .grad))))

/-- A result has the same ids and, under every key that the call was asked for, the same scores. -/
def SameScores (groups : Option (List PyStr)) (v w : IFResult K) : Prop :=
  v.srcIds = w.srcIds ∧ v.tgtIds = w.tgtIds ∧
    ∀ k, k = ['t', 'o', 't', 'a', 'l'] ∨ k ∈ groups.getD [] → ∃ t, v.influence.get? k = some t ∧ w.influence.get? k = some t

end Logix.Spec
