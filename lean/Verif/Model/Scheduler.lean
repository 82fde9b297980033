/-
The epoch scheduler: logix/scheduler.py.
-/
import Verif.Model.Option

namespace Logix

/-- Calls the scheduler makes on the LogIX object it was given. -/
inductive SCall
  | addLora
  | save (enable : Bool)
  | setup (kw : OptionKwargs)

/-- logix/scheduler.py:19-39: attributes. `pos` is the position of `_schedule_iterator`. -/
structure Scheduler where
  lora : PyStr
  hessian : PyStr
  save : PyStr
  epoch : Int
  schedule : List OptionKwargs
  pos : Nat

/-- Python string literals of logix/scheduler.py. -/
def sNone : PyStr := ['n', 'o', 'n', 'e']
def sRandom : PyStr := ['r', 'a', 'n', 'd', 'o', 'm']
def sPca : PyStr := ['p', 'c', 'a']
def sRaw : PyStr := ['r', 'a', 'w']
def sKfac : PyStr := ['k', 'f', 'a', 'c']
def sEkfac : PyStr := ['e', 'k', 'f', 'a', 'c']
def sForward : PyStr := ['f', 'o', 'r', 'w', 'a', 'r', 'd']
def sBackward : PyStr := ['b', 'a', 'c', 'k', 'w', 'a', 'r', 'd']
def sGrad : PyStr := ['g', 'r', 'a', 'd']

/-- logix/scheduler.py:59-61 and 64-66: the covariance epoch. -/
def covState : OptionKwargs := { forward := some [.cls .covariance], backward := some [.cls .covariance] }

/-- logix/scheduler.py:68-70: the last state after the `save` entry; `last_state[save]` raises KeyError for an unknown key. -/
def lastStateSave (save : PyStr) : Py (List Plugin × List Plugin × List Plugin) :=
  if save ≠ sNone then
    if save = sForward then .ok ([.log], [], [])
    else if save = sBackward then .ok ([], [.log], [])
    else if save = sGrad then .ok ([], [], [.log])
    else .error .keyError
  else .ok ([], [], [])

/-- logix/scheduler.py:71-81: the last state after the `hessian` entries. -/
def lastStateHessian (hessian : PyStr) (s : List Plugin × List Plugin × List Plugin) : List Plugin × List Plugin × List Plugin :=
  if hessian = sKfac then (s.1 ++ [.covariance], s.2.1 ++ [.covariance], s.2.2)
  else if hessian = sEkfac then
    let g := if .log ∉ s.2.2 then s.2.2 ++ [.log] else s.2.2
    (s.1, s.2.1, g ++ [.correctedEigval])
  else if hessian = sRaw then
    let g := if .log ∉ s.2.2 then s.2.2 ++ [.log] else s.2.2
    (s.1, s.2.1, g ++ [.covariance])
  else s

/-- logix/scheduler.py:57-82 `configure_schedule` -/
def configureSchedule (lora hessian save : PyStr) : Py (List OptionKwargs) :=
  let a := if lora = sPca then [covState] else []
  let b := if hessian = sEkfac then [covState] else []
  match lastStateSave save with
  | .error e => .error e
  | .ok s =>
    let t := lastStateHessian hessian s
    .ok (a ++ b ++ [{ forward := some (t.1.map .cls), backward := some (t.2.1.map .cls), grad := some (t.2.2.map .cls) }])

/-- logix/scheduler.py:20-43 `__init__` with `sanity_check` -/
def Scheduler.init (lora hessian save : PyStr) : Py Scheduler :=
  if lora ∈ [sNone, sRandom, sPca] then
    if hessian ∈ [sNone, sRaw, sKfac, sEkfac] then
      match configureSchedule lora hessian save with
      | .error e => .error e
      | .ok sch => .ok ⟨lora, hessian, save, -1, sch, 0⟩
    else .error .assertionError
  else .error .assertionError

/-- logix/scheduler.py:103-104 `__len__` -/
def Scheduler.len (s : Scheduler) : Nat := s.schedule.length

/-- logix/scheduler.py:45-50 `get_lora_epoch` -/
def Scheduler.loraEpoch (s : Scheduler) : Int := if s.lora = sRandom then 0 else if s.lora = sPca then 1 else -1

/-- logix/scheduler.py:52-55 `get_save_epoch` -/
def Scheduler.saveEpoch (s : Scheduler) : Int := if s.save ≠ sNone then (s.len : Int) - 1 else -1

/-- logix/scheduler.py:87-101 `__next__`: new scheduler, the calls made on the LogIX object, and the result. Simplification: the calls
on the LogIX object return normally. -/
def Scheduler.next (s : Scheduler) : Scheduler × List SCall × Py Int :=
  match s.schedule[s.pos]? with
  | none => (s, [], .error .stopIteration)
  | some kw =>
    let s := { s with pos := s.pos + 1, epoch := s.epoch + 1 }
    let c1 := if s.epoch = s.loraEpoch then [.addLora] else []
    let c2 := if s.epoch = s.saveEpoch then [.save true] else []
    (s, c1 ++ c2 ++ [.setup kw], .ok s.epoch)

/-- `n` consecutive calls of `next`: what each returned and the calls it made. -/
def Scheduler.nexts (s : Scheduler) : Nat → List (List SCall × Py Int)
  | 0 => []
  | n + 1 => (s.next.2.1, s.next.2.2) :: s.next.1.nexts n

end Logix
