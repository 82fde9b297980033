/-
The datasets and loaders that `LogIX` hands out: logix/logix.py:315-363.
-/
import Verif.Model.Saver
import Verif.Model.Collate

namespace Logix

/-- A `LogDataset` with its flag (logix/logging/log_loader.py:28-38). Simplification: the data files are read when the dataset is opened, not mapped; a
run of its own never writes to a chunk again. -/
structure LogData where
  data : Dataset
  flatten : Bool

/-- The `DataLoader` made in logix/logix.py:352-362: the dataset, the batch size, and whether `collate_nested_dicts` is its collate function. -/
structure LogLoader where
  set : LogData
  batchSize : Nat
  nested : Bool

/-- A batch served by a loader. -/
inductive LogBatch where
  | nested (ids : List PyStr) (log : List (PyStr × Nested Arr))
  | flat (ids : List PyStr) (rows : Arr)

/-- Iterating the loader to its end. `collate_nested_dicts` calls `.items()` of a tensor if the dataset is flat (AttributeError). Simplification:
`default_collate` of nested dictionaries is taken to be `collate_nested_dicts`, which it is if the samples have the same keys. -/
def LogLoader.batches (l : LogLoader) : Py (List LogBatch) :=
  if l.set.flatten then
    if l.nested then
      if l.batchSize = 0 then .error .valueError else if l.set.data.len = 0 then .ok [] else .error .attributeError
    else
      match loadFlatBatches l.set.data l.batchSize with
      | .error e => .error e
      | .ok bs => .ok (bs.map fun b => .flat b.1 b.2)
  else
    match loadBatches l.set.data l.batchSize with
    | .error e => .error e
    | .ok bs => .ok (bs.map fun b => .nested b.1 b.2)

/-- The part of a `LogIX` run that matters here: the directory, the saver, `self.log_dataset` and `self.log_dataloader` (logix/logix.py:91-92). -/
structure Front where
  fs : FS
  saver : Saver
  dataset : Option LogData
  loader : Option LogLoader

/-- A new run. -/
def Front.init (fs : FS) (rank numWorkers : Nat) (threshold : Int) : Front := ⟨fs, Saver.init rank numWorkers threshold, none, none⟩

/-- logix/logix.py:315-329 `build_log_dataset`; `listing` is the order in which the directory lists its files. -/
def Front.buildDataset (listing : List PyStr) (flatten : Bool) (f : Front) : Front × Py LogData :=
  match f.dataset with
  | some d => (f, .ok d)
  | none =>
    match openDataset f.fs listing with
    | .error e => (f, .error e)
    | .ok ds => ({ f with dataset := some ⟨ds, flatten⟩ }, .ok ⟨ds, flatten⟩)

/-- logix/logix.py:331-363 `build_log_dataloader`. (`DataLoader` raises ValueError for batch size 0 when it is made.) -/
def Front.buildLoader (listing : List PyStr) (batchSize : Nat) (flatten : Bool) (f : Front) : Front × Py LogLoader :=
  match f.loader with
  | some l => (f, .ok l)
  | none =>
    match f.buildDataset listing flatten with
    | (f', .error e) => (f', .error e)
    | (f', .ok d) =>
      if batchSize = 0 then (f', .error .valueError)
      else ({ f' with loader := some ⟨d, batchSize, !flatten⟩ }, .ok ⟨d, batchSize, !flatten⟩)

/-- What a user does with a run. -/
inductive FrontOp where
  | saver (op : SaverOp)
  | dataset (listing : List PyStr) (flatten : Bool)
  | loader (listing : List PyStr) (batchSize : Nat) (flatten : Bool)

/-- One operation; an exception leaves the state as the call left it. -/
def FrontOp.run (order : List Path) (f : Front) : FrontOp → Front
  | .saver op => { f with fs := (op.run order f.fs f.saver).1, saver := (op.run order f.fs f.saver).2.1 }
  | .dataset listing flatten => (f.buildDataset listing flatten).1
  | .loader listing batchSize flatten => (f.buildLoader listing batchSize flatten).1

/-- A history of operations. -/
def runFront (order : List Path) (ops : List FrontOp) (f : Front) : Front := ops.foldl (FrontOp.run order) f

end Logix
