/-
A process that stops inside an operation of the log saver.
-/
import Verif.Model.Saver

namespace Logix

/-- The effects on the directory of `_flush_serialized`, in program order (logix/logging/log_saver.py:83-101). -/
def Saver.serializedActions (order : List Path) (s : Saver) : List Action :=
  if s.buffer.isEmpty then [] else (writeChunk (chunkFile s.rank s.flushCount) s.items order).1

/-- The effects on the directory of `flush`, in program order (logix/logging/log_saver.py:58-112). -/
def Saver.flushActions (order : List Path) (s : Saver) : List Action :=
  if 0 < s.flushThreshold ∧ s.flushThreshold < (s.bufferSize : Int) then
    if 1 < s.numWorkers then s.flushUnsafeEffects else s.serializedActions order
  else []

/-- The effects on the directory of one saver operation, in program order (logix/logging/log_saver.py:39-118,
logix/logging/logger.py:76-79). `SaverOp.run_eq_actions` shows that these are the effects of `SaverOp.run`. -/
def SaverOp.actions (order : List Path) (s : Saver) : SaverOp → List Action
  | .save ids log =>
    match s.bufferWrite ids log with
    | (_, .error _) => []
    | (s', .ok _) => s'.flushActions order
  | .finalize => s.serializedActions order

/-- What a primitive effect can have done when the process stops in the middle of it: `np.memmap(mode="w+")` truncates the file and
then extends it (logix/logging/mmap.py:52); a slice assignment may have stored only some leading bytes (line 66); `json.dump` may have
written part of the document (lines 82-83). -/
inductive Torn : Action → Action → Prop where
  | data (name : PyStr) (bytes : List UInt8) : Torn (.create name (.data bytes)) (.create name (.data []))
  | metadata (name : PyStr) (ms : List MetaEntry) : Torn (.create name (.metadata ms)) (.create name .incomplete)
  | store (name : PyStr) (offset : Nat) (bytes : List UInt8) (j : Nat) :
      Torn (.store name offset bytes) (.store name offset (bytes.take j))

/-- The directories that can be found after the process stopped while performing the given effects. Buffered data in the page cache is
taken to survive a process that stops (not a power loss). -/
inductive CrashState (fs : FS) (acts : List Action) : FS → Prop where
  | between (pre post : List Action) (h : acts = pre ++ post) : CrashState fs acts (runActions fs pre)
  | inside (pre post : List Action) (a t : Action) (h : acts = pre ++ a :: post) (ht : Torn a t) :
      CrashState fs acts (runActions fs (pre ++ [t]))

end Logix
