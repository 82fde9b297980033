/-
Specification: what a logging session hands to the saver, and when no gradient arrives between batches.
-/
import Verif.Spec.Session
import Verif.Spec.Codec

namespace Logix.Spec
variable {K : Type}

/-- The tensors in the batch log at this moment. -/
def tensors (s : Sess K) : GLog K :=
  s.log.map fun m => (m.1, m.2.filterMap fun t => (s.obj t.2).map fun o => (t.1, o.val))

/-- What an operation hands to the saver: the end of a batch that is to be saved its ids and the log as it is at this moment. -/
def handedBy (s : Sess K) : SOp K → List (LogOp K)
  | .exit => if s.saveBatch || s.save then [.save (s.dataId.getD []) (tensors s)] else []
  | .end b => if b || s.save then [.save (s.dataId.getD []) (tensors s)] else []
  | .finalize _ => [.finalize]
  | _ => []

/-- What a history hands to the saver. -/
def handed [Field K] (E : SEnv K) : List (SOp K) → Sess K → List (LogOp K)
  | [], _ => []
  | o :: rest, s => handedBy s o ++ handed E rest (o.run E s).1

/-- The configuration of a run: options, watched modules, flags, data. -/
inductive Prepares : SOp K → Prop where
  | setup (kw) : Prepares (.setup kw)
  | watch (sel) : Prepares (.watch sel)
  | save (b) : Prepares (.save b)
  | eval : Prepares .eval
  | alloc (o) : Prepares (.alloc o)
  | analysis (o) : Prepares (.analysis o)

/-- The operations that end a batch or the run. -/
inductive Ends : SOp K → Prop where
  | exit : Ends .exit
  | end (b) : Ends (.end b)
  | finalize (dir) : Ends (.finalize dir)

/-- Gradients arrive only within a batch: not between the end of one and the beginning of the next. The configuration stays as it is.
`within` tells whether a batch has begun. -/
def Tidy (within : Bool) : List (SOp K) → Prop
  | [] => True
  | .gradAt _ _ :: rest => within = true ∧ Tidy within rest
  | .call _ _ _ :: rest => Tidy true rest
  | .start _ _ :: rest => Tidy true rest
  | .log _ _ :: rest => Tidy true rest
  | .exit :: rest => Tidy false rest
  | .end _ :: rest => Tidy false rest
  | .setup _ :: _ => False
  | .watch _ :: _ => False
  | .clear :: _ => False
  | _ :: rest => Tidy within rest

end Logix.Spec
