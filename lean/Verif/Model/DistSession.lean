/-
`LogIX.finalize` in several processes.
-/
import Verif.Model.Session
import Verif.Model.Dist

namespace Logix
variable {K : Type}

/-- logix/logging/logger.py:330-334 `HookLogger.finalize`: the remaining buffer is written. -/
def Sess.flushAll [Zero K] (E : SEnv K) : SAct K := Sess.withSaver E fun order fs sv => sv.finalize order fs

/-- logix/logix.py:522-532 `finalize`, run by all processes together: the states are finalized together, then each process writes the rest of its buffer.
Each process has its own files here and the saver of each has rank 0; the files of different ranks have different names
(logix/logging/log_saver.py:28, see Model/Saver `runCluster`). Saving the
configuration (logix/logix.py:535) is not part of it, as in `Sess.finalize`. -/
def finalizeSessions [Field K] (E : SEnv K) (us : List (Sess K)) (dir : StateDir K) : Py (List (Sess K × Option PyErr) × StateDir K) :=
  match finalizeDist (us.map Sess.st) dir with
  | .error e => .error e
  | .ok (ss, dir') => .ok (List.zipWith (fun u s => Sess.flushAll E { u with st := s }) us ss, dir')

end Logix
