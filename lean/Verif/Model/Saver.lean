/-
logix/logging/log_saver.py: buffering and flushing of logs.
-/
import Verif.Model.Storage

namespace Logix

/-- `value[idx]` for a tensor whose first dimension is the batch, then `to_numpy`
(logix/logging/log_saver.py:49, logix/utils.py:67-78). Out of range, and on a zero-dimensional tensor, PyTorch raises IndexError. -/
def Arr.row (a : Arr) (idx : Nat) : Py Arr :=
  match h : a.shape with
  | [] => .error .indexError
  | b :: s =>
    if hi : idx < b then
      .ok ⟨a.dtype, s, (a.bytes.drop (idx * (numel s * a.dtype.itemsize))).take (numel s * a.dtype.itemsize), by
        have hn : numel a.shape = b * numel s := by
          rw [h]
          have hf : ∀ (l : List Nat) (x : Nat), l.foldl (· * ·) x = x * l.foldl (· * ·) 1 := by
            intro l
            induction l with
            | nil => simp
            | cons y ys ih => intro x; simp only [List.foldl_cons]; rw [ih (x * y), ih (1 * y)]; simp [Nat.mul_assoc]
          simp only [numel, List.foldl_cons]
          rw [hf]; simp
        rw [List.length_take, List.length_drop, a.wf, hn]
        have h1 : idx * (numel s * a.dtype.itemsize) + numel s * a.dtype.itemsize
            ≤ b * numel s * a.dtype.itemsize := by
          have : (idx + 1) * (numel s * a.dtype.itemsize) ≤ b * (numel s * a.dtype.itemsize) :=
            Nat.mul_le_mul_right _ hi
          rw [Nat.add_mul, Nat.one_mul] at this
          rw [Nat.mul_assoc]; exact this
        omega⟩
    else .error .indexError

/-- The buffered log of one sample (a `defaultdict` of nested dictionaries), the size counter, and the exception if one was raised. -/
abbrev AddResult := (List (PyStr × Nested Arr) × Nat) × Option PyErr

mutual
/-- logix/logging/log_saver.py:47-53, one iteration of the loop of `_add`. `buffer[key]` of a `defaultdict` creates an empty
dictionary when the key is missing. If an array is stored under the key, indexing it with a string raises IndexError (unless the
new value is an empty dictionary, then nothing is indexed). -/
def addValue (idx : Nat) (key : PyStr) : Nested Arr → List (PyStr × Nested Arr) × Nat → AddResult
  | .leaf t, (buf, n) =>
    match t.row idx with
    | .error e => ((buf, n), some e)
    | .ok r => ((Dict.set buf key (.leaf r), n + r.size), none)
  | .node m, (buf, n) =>
    match Dict.get? buf key with
    | some (.leaf _) => ((buf, n), if m.isEmpty then none else some .indexError)
    | some (.node sub) =>
      let r := addLog idx m (sub, n)
      ((Dict.set buf key (.node r.1.1), r.1.2), r.2)
    | none =>
      let r := addLog idx m ([], n)
      ((Dict.set buf key (.node r.1.1), r.1.2), r.2)
/-- logix/logging/log_saver.py:46-53 `_add`: the loop over `log.items()`. -/
def addLog (idx : Nat) : List (PyStr × Nested Arr) → List (PyStr × Nested Arr) × Nat → AddResult
  | [], st => (st, none)
  | (k, v) :: rest, st =>
    match addValue idx k v st with
    | (st', some e) => (st', some e)
    | (st', none) => addLog idx rest st'
end

/-- `LogSaver`, logix/logging/log_saver.py:23-37. The file system is kept beside it. -/
structure Saver where
  rank : Nat
  numWorkers : Nat
  flushThreshold : Int
  flushCount : Nat
  buffer : Dict PyStr (List (PyStr × Nested Arr))
  bufferSize : Nat

/-- logix/logging/log_saver.py:24-37 `LogSaver.__init__` -/
def Saver.init (rank numWorkers : Nat) (threshold : Int) : Saver :=
  ⟨rank, numWorkers, threshold, 0, [], 0⟩

/-- logix/logging/log_saver.py:55-56: the loop of `buffer_write` over `enumerate(data_id)`. -/
def Saver.bufferWriteFrom (log : List (PyStr × Nested Arr)) : Nat → List PyStr → Saver → Saver × Py Unit
  | _, [], s => (s, .ok ())
  | idx, did :: rest, s =>
    let r := addLog idx log ((Dict.get? s.buffer did).getD [], s.bufferSize)
    let s' := { s with buffer := Dict.set s.buffer did r.1.1, bufferSize := r.1.2 }
    match r.2 with
    | some e => (s', .error e)
    | none => Saver.bufferWriteFrom log (idx + 1) rest s'

/-- logix/logging/log_saver.py:39-56 `buffer_write`. -/
def Saver.bufferWrite (s : Saver) (dataId : List PyStr) (log : List (PyStr × Nested Arr)) : Saver × Py Unit :=
  Saver.bufferWriteFrom log 0 dataId s

/-- The buffer as the list of (id, nested log) pairs handed to `MemoryMapHandler.write`. -/
def Saver.items (s : Saver) : List (PyStr × Nested Arr) := s.buffer.map fun e => (e.1, .node e.2)

/-- logix/logging/log_saver.py:120-125 `buffer_clear`. -/
def Saver.bufferClear (s : Saver) : Saver := { s with buffer := [], bufferSize := 0 }

/-- logix/logging/log_saver.py:83-101 `_flush_serialized`. -/
def Saver.flushSerialized (order : List Path) (fs : FS) (s : Saver) : FS × Saver × Py Unit :=
  if s.buffer.isEmpty then (fs, s, .ok ())
  else
    let w := writeChunk (chunkFile s.rank s.flushCount) s.items order
    match w.2 with
    | .error e => (runActions fs w.1, s, .error e)
    | .ok _ => (runActions fs w.1, { s with flushCount := s.flushCount + 1 }.bufferClear, .ok ())

/-- logix/logging/log_saver.py:58-67 `_flush_unsafe`, as run by the worker thread: `for k, v in buffer` iterates over the *keys* of the
dictionary, so every key (a string) is unpacked into two characters. Unless all ids have exactly two characters this raises
ValueError before anything is written; if they do, `write` is called with values that are strings, finds no arrays, creates an
empty data file and raises ValueError. Either way the exception stays in the future. -/
def Saver.flushUnsafeEffects (s : Saver) : List Action :=
  if (Dict.keys s.buffer).all (fun k => k.length = 2) then
    [.create (writeNames (chunkFile s.rank s.flushCount)).1 (.data [])]
  else []

/-- logix/logging/log_saver.py:69-81 `_flush_safe`: copies the buffer, counts, clears, and runs the worker; the `with` block
waits for it, the result (or exception) of the future is never asked for. -/
def Saver.flushSafe (fs : FS) (s : Saver) : FS × Saver × Py Unit :=
  (runActions fs s.flushUnsafeEffects, { s with flushCount := s.flushCount + 1 }.bufferClear, .ok ())

/-- logix/logging/log_saver.py:103-112 `flush`; `allow_async` (line 31) is `num_workers > 1`. -/
def Saver.flush (order : List Path) (fs : FS) (s : Saver) : FS × Saver × Py Unit :=
  if 0 < s.flushThreshold ∧ s.flushThreshold < (s.bufferSize : Int) then
    if 1 < s.numWorkers then s.flushSafe fs else s.flushSerialized order fs
  else (fs, s, .ok ())

/-- logix/logging/log_saver.py:114-118 `finalize`. -/
def Saver.finalize (order : List Path) (fs : FS) (s : Saver) : FS × Saver × Py Unit :=
  s.flushSerialized order fs

/-- logix/logging/logger.py:76-79 `HookLogger.save_log`. -/
def Saver.saveLog (order : List Path) (dataId : List PyStr) (log : List (PyStr × Nested Arr)) (fs : FS) (s : Saver) :
    FS × Saver × Py Unit :=
  match s.bufferWrite dataId log with
  | (s', .error e) => (fs, s', .error e)
  | (s', .ok _) => s'.flush order fs

/-- What a logging session does to the saver. -/
inductive SaverOp where
  | save (dataId : List PyStr) (log : List (PyStr × Nested Arr))
  | finalize

/-- One operation. -/
def SaverOp.run (order : List Path) (fs : FS) (s : Saver) : SaverOp → FS × Saver × Py Unit
  | .save ids log => s.saveLog order ids log fs
  | .finalize => s.finalize order fs

/-- A session of one process: operations one after the other, stopping at the first exception. -/
def runSession (order : List Path) : List SaverOp → FS → Saver → FS × Saver × Py Unit
  | [], fs, s => (fs, s, .ok ())
  | op :: ops, fs, s =>
    match op.run order fs s with
    | (fs', s', .error e) => (fs', s', .error e)
    | (fs', s', .ok _) => runSession order ops fs' s'

/-- Several processes (ranks) sharing one directory; every rank has its own saver. A schedule is a list of (rank, operation)
pairs: any interleaving of the ranks' operations. Flushes are atomic with respect to each other; their files have
different names (C05). -/
def runCluster (order : List Path) : List (Nat × SaverOp) → FS → (Nat → Saver) → FS × (Nat → Saver) × Py Unit
  | [], fs, ss => (fs, ss, .ok ())
  | (r, op) :: ops, fs, ss =>
    match op.run order fs (ss r) with
    | (fs', s', .error e) => (fs', fun q => if q = r then s' else ss q, .error e)
    | (fs', s', .ok _) => runCluster order ops fs' (fun q => if q = r then s' else ss q)

end Logix
