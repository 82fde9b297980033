/-
Influence with the Lightning integration: logix/lightning/callback.py and patch.py in mode "influence".
-/
import Verif.Model.InfluenceAll
import Verif.Model.Lightning

namespace Logix
variable {K : Type}

/-- logix/lightning/arguments.py `influence_mode` and `influence_damping`: the arguments that influence computations of the callback use. -/
structure LArgs (K : Type) where
  mode : Mode
  damping : Option K

/-- logix/lightning/callback.py:63-78 `on_train_batch_end` in mode "influence", for a batch with the given ids and log (`get_log()`). `loader` is the list of
the batches of `build_log_dataloader(...)`, which is built once (logix/logix.py:352-363).
`compute_influence_all` is called with its defaults `precondition=True`, `hessian="auto"` and no groups. -/
def lightningBatchEnd [Field K] (L : Lib K) (sqrt : K → K) (a : LArgs K) (loader : List (List PyStr × LogArg K)) (o : IFObj K) (b : List PyStr × GLog K) : Py (IFObj K) :=
  match computeInfluenceAll L sqrt o b.1 (.dict b.2) loader a.mode true true .auto none a.damping with
  | .error e => .error e
  | .ok (o, _) => .ok o

/-- The batches of an epoch in mode "influence". -/
def lightningEpoch [Field K] (L : Lib K) (sqrt : K → K) (a : LArgs K) (loader : List (List PyStr × LogArg K)) : IFObj K → List (List PyStr × GLog K) → Py (IFObj K)
  | o, [] => .ok o
  | o, b :: bs =>
    match lightningBatchEnd L sqrt a loader o b with
    | .error e => .error e
    | .ok o => lightningEpoch L sqrt a loader o bs

/-- What the events of `fit` do to the influence object. (`setup` and `save` do not touch it.) -/
def lightningEvents [Field K] (L : Lib K) (sqrt : K → K) (a : LArgs K) (loader : List (List PyStr × LogArg K)) (data : List (List PyStr × GLog K)) :
    IFObj K → List LEvent → Py (IFObj K)
  | o, [] => .ok o
  | o, .batches _ :: es =>
    match lightningEpoch L sqrt a loader o data with
    | .error e => .error e
    | .ok o => lightningEvents L sqrt a loader data o es
  | o, _ :: es => lightningEvents L sqrt a loader data o es

/-- A trainer of the Lightning integration: `current_epoch`, and `logix.influence` with the state it refers to. -/
structure LTrainer (K : Type) where
  cur : Nat
  infl : IFObj K

/-- logix/lightning/patch.py:171-175 `influence`, with the data that is passed to it; the result is what `get_influence_scores()` returns (`none`: an
empty dictionary). `fit` sets `should_stop` to False first and goes on counting epochs where it was (assumed, Lightning). -/
def LTrainer.influence [Field K] (L : Lib K) (sqrt : K → K) (a : LArgs K) (loader : List (List PyStr × LogArg K)) (t : TrainerLimits) (fuel : Nat) (tr : LTrainer K)
    (data : List (List PyStr × GLog K)) : Py (LTrainer K × Option (IFResult K)) :=
  let ev := (influenceLoop t fuel tr.cur false).1
  match lightningEvents L sqrt a loader data tr.infl ev with
  | .error e => .error e
  | .ok o => .ok (⟨tr.cur + (ev.countP fun e => match e with | .batches _ => true | _ => false), o⟩, o.saved.map o.heap.deref)

end Logix
