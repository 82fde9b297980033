/-
The Lightning integration: logix/lightning/callback.py, driven by the epoch loop of Lightning's trainer.
-/
import Verif.Model.Scheduler

namespace Logix

/-- What happens during `fit`, in order: calls made on the LogIX object by the scheduler, the batches of one epoch, `finalize()`. -/
inductive LEvent
  | call (c : SCall)
  | batches (epoch : Nat)
  | finalize

/-- How the epoch loop ended: it stopped, the scheduler raised StopIteration, or (model only) the fuel ran out. -/
inductive LEnd
  | stopped | exhausted | outOfFuel
  deriving DecidableEq

/-- The trainer's epoch limits (`max_epochs`, where `none` is "no limit", and `min_epochs`). -/
structure TrainerLimits where
  maxEpochs : Option Nat
  minEpochs : Nat

/-- Lightning's epoch loop (assumed, not part of the repository): before each epoch it stops if `max_epochs` epochs were run, or if
`should_stop` is set and `min_epochs` epochs were run; `cur` is `trainer.current_epoch`. -/
def TrainerLimits.reached (t : TrainerLimits) (cur : Nat) (shouldStop : Bool) : Bool :=
  (match t.maxEpochs with | none => false | some m => decide (m ≤ cur)) || (shouldStop && decide (t.minEpochs ≤ cur))

/-- `PatchedTrainer.extract_log` (logix/lightning/patch.py:167-169) running Lightning's loop with
logix/lightning/callback.py:42-44 `on_train_epoch_start` and 49-55 `on_train_epoch_end` in mode "log". -/
def extractLogLoop (t : TrainerLimits) : Nat → Scheduler → Nat → Bool → List LEvent × LEnd
  | 0, _, _, _ => ([], .outOfFuel)
  | fuel + 1, s, cur, shouldStop =>
    if t.reached cur shouldStop then ([], .stopped)
    else
      match s.next with
      | (_, calls, .error _) => (calls.map .call, .exhausted)
      | (s', calls, .ok _) =>
        let stop := decide ((cur : Int) ≥ (s'.len : Int) - 1)
        let rest := extractLogLoop t fuel s' (cur + 1) stop
        (calls.map .call ++ [.batches cur, .finalize] ++ rest.1, rest.2)

/-- `PatchedTrainer.influence` / `self_influence` (logix/lightning/patch.py:171-181): logix/lightning/callback.py:45-47 and 53-55 with
`max_epochs = 1`. -/
def influenceLoop (t : TrainerLimits) : Nat → Nat → Bool → List LEvent × LEnd
  | 0, _, _ => ([], .outOfFuel)
  | fuel + 1, cur, shouldStop =>
    if t.reached cur shouldStop then ([], .stopped)
    else
      let calls : List SCall := [.setup { grad := some [.name ['l', 'o', 'g']] }, .save false]
      let stop := decide ((cur : Int) ≥ 1 - 1)
      let rest := influenceLoop t fuel (cur + 1) stop
      (calls.map .call ++ [.batches cur] ++ rest.1, rest.2)

end Logix
