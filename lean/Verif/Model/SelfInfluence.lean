/-
Self-influence with the trainers: the mode "self_influence" of logix/huggingface/callback.py, patch.py and logix/lightning/callback.py, patch.py.
-/
import Verif.Model.HuggingFace
import Verif.Model.LightningInfluence

namespace Logix
variable {K : Type}

/-- logix/analysis/influence_function.py:32-43: an `InfluenceFunction` with `self_influence_scores` (`none`: the empty dictionary), which
`get_self_influence_scores()` returns. -/
structure SelfIF (K : Type) where
  infl : IFObj K
  selfScores : Option (SelfResult K)

/-- logix/analysis/influence_function.py:180-240 `compute_self_influence` as a method: it returns its result and assigns no attribute of the object. -/
def SelfIF.compute [Field K] (L : Lib K) (o : SelfIF K) (ids : List PyStr) (log : GLog K) (groups : Option (List PyStr)) (damping : Option K) : Py (SelfIF K × SelfResult K) :=
  match computeSelf L o.infl.st ids (.dict log) true .auto groups damping with
  | .error e => .error e
  | .ok (s, r) => .ok ({ o with infl := { o.infl with st := s } }, r)

/-- logix/huggingface/callback.py:22-37: the part of the callback that self-influence computations use. `computed` is not in the code: it lists the results that
`compute_self_influence` has returned to the callback, which drops them. -/
structure HFSelf (K : Type) where
  obj : SelfIF K
  acc : List (List PyStr × GLog K)
  computed : List (SelfResult K)

/-- logix/huggingface/callback.py:82-93 `on_step_end` and 95-97 `on_substep_end` in mode "self_influence". -/
def HFSelf.hook [Field K] (L : Lib K) (a : HFArgs K) (c : HFSelf K) (b : Micro K) : Py (HFSelf K) :=
  let acc := c.acc ++ [(b.ids, b.log)]
  if b.step then
    match mergeBatches acc with
    | .error e => .error e
    | .ok (ids, log) =>
      match c.obj.compute L ids log a.groups a.damping with
      | .error e => .error e
      | .ok (o, r) => .ok ⟨o, [], c.computed ++ [r]⟩
  else .ok { c with acc := acc }

/-- The micro-batches of an epoch in mode "self_influence". -/
def HFSelf.batches [Field K] (L : Lib K) (a : HFArgs K) : HFSelf K → List (Micro K) → Py (HFSelf K)
  | c, [] => .ok c
  | c, b :: bs =>
    match c.hook L a b with
    | .error e => .error e
    | .ok c => batches L a c bs

/-- What the events of `train` do when every epoch has the same micro-batches. (`setup` and `save` do not touch the influence object; the state it refers to is
that of after `initialize_from_log`.) -/
def HFSelf.events [Field K] (L : Lib K) (a : HFArgs K) (data : List (Micro K)) : HFSelf K → List HEvent → Py (HFSelf K)
  | c, [] => .ok c
  | c, .batches _ :: es =>
    match c.batches L a data with
    | .error e => .error e
    | .ok c => events L a data c es
  | c, _ :: es => events L a data c es

/-- logix/huggingface/patch.py:109-113 `self_influence`. The second component is what the method returns: `None`. -/
def HFSelf.selfInfluence [Field K] (L : Lib K) (a : HFArgs K) (initFromLog : Bool) (s : Scheduler) (c : HFSelf K) (data : List (Micro K)) :
    Py (HFSelf K × Option (SelfResult K)) :=
  match c.events L a data (hfTrain initFromLog .selfInfluence s).1 with
  | .error e => .error e
  | .ok c => .ok (c, none)

/-- A trainer of the Lightning integration: `current_epoch` and `logix.influence`; `computed` as in `HFSelf`. -/
structure LSelf (K : Type) where
  cur : Nat
  obj : SelfIF K
  computed : List (SelfResult K)

/-- logix/lightning/callback.py:79-87 `on_train_batch_end` in mode "self_influence". No groups are passed. Simplification: the data loader over the logs that is built
before the computation, and not used by it, is left out. -/
def LSelf.batchEnd [Field K] (L : Lib K) (a : LArgs K) (t : LSelf K) (b : List PyStr × GLog K) : Py (LSelf K) :=
  match t.obj.compute L b.1 b.2 none a.damping with
  | .error e => .error e
  | .ok (o, r) => .ok { t with obj := o, computed := t.computed ++ [r] }

/-- The batches of an epoch in mode "self_influence". -/
def LSelf.epoch [Field K] (L : Lib K) (a : LArgs K) : LSelf K → List (List PyStr × GLog K) → Py (LSelf K)
  | t, [] => .ok t
  | t, b :: bs =>
    match t.batchEnd L a b with
    | .error e => .error e
    | .ok t => epoch L a t bs

/-- What the events of `fit` do; a pass over the data counts as an epoch. -/
def LSelf.events [Field K] (L : Lib K) (a : LArgs K) (data : List (List PyStr × GLog K)) : LSelf K → List LEvent → Py (LSelf K)
  | t, [] => .ok t
  | t, .batches _ :: es =>
    match t.epoch L a data with
    | .error e => .error e
    | .ok t => events L a data { t with cur := t.cur + 1 } es
  | t, _ :: es => events L a data t es

/-- logix/lightning/patch.py:177-181 `self_influence`. The second component is what the method returns: `None`. -/
def LSelf.selfInfluence [Field K] (L : Lib K) (a : LArgs K) (lim : TrainerLimits) (fuel : Nat) (t : LSelf K) (data : List (List PyStr × GLog K)) :
    Py (LSelf K × Option (SelfResult K)) :=
  match t.events L a data (influenceLoop lim fuel t.cur false).1 with
  | .error e => .error e
  | .ok t => .ok (t, none)

end Logix
