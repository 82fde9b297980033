/-
The chunk file format: logix/logging/mmap.py, log_loader.py and the non-collating part of log_loader_utils.py.
-/
import Verif.Model.Nested

namespace Logix

/-- One element of the metadata list, logix/logging/mmap.py:68-77. -/
structure MetaEntry where
  dataId : PyStr
  path : List Path
  offset : Nat
  shape : List (List Nat)
  blockSize : Nat
  dtype : DType
  deriving DecidableEq

/-- What a file contains. `metadata` is a complete JSON document (JSON text is not modelled: a document that
was written completely is read back as the same value). `incomplete` is a JSON file whose writing has
not finished (empty or cut off). -/
inductive FileContent where
  | data (bytes : List UInt8)
  | metadata (entries : List MetaEntry)
  | incomplete
  deriving DecidableEq

/-- A directory: file names and contents. -/
abbrev FS := Dict PyStr FileContent

/-- Primitive effects of a chunk write on the directory, in program order. -/
inductive Action where
  /-- open for writing, truncating, and set the content -/
  | create (name : PyStr) (content : FileContent)
  /-- `mmap[offset : offset + len(bytes)] = bytes` -/
  | store (name : PyStr) (offset : Nat) (bytes : List UInt8)

/-- Overwrite a slice of a byte string (the slice lies inside it in every use). -/
def overwrite (old : List UInt8) (offset : Nat) (bytes : List UInt8) : List UInt8 :=
  old.take offset ++ bytes ++ old.drop (offset + bytes.length)

/-- Effect of one primitive action. -/
def Action.run (fs : FS) : Action → FS
  | .create name c => Dict.set fs name c
  | .store name offset bytes =>
    match Dict.get? fs name with
    | some (.data old) => Dict.set fs name (.data (overwrite old offset bytes))
    | _ => fs

/-- Effect of a sequence of actions. -/
def runActions (fs : FS) (acts : List Action) : FS := acts.foldl Action.run fs

/-- `reduce(lambda x, y: x * y, shape)`: raises TypeError on the empty shape.
logix/logging/mmap.py:64, logix/logging/log_loader_utils.py:133. -/
def reduceMul : List Nat → Py Nat
  | [] => .error .typeError
  | x :: xs => .ok (xs.foldl (· * ·) x)

/-- The bytes that `mmap[offset : offset + n] = arr` stores for an array of `n` bytes in a map of `total` bytes: the
slice is clipped to the map; NumPy raises ValueError unless the lengths agree or a single byte is broadcast. -/
def storeSlice (total offset : Nat) (bytes : List UInt8) : Py (List UInt8) :=
  let m := min (offset + bytes.length) total - min offset total
  if m = bytes.length then .ok bytes
  else match bytes with
    | [b] => .ok (List.replicate m b)
    | _ => .error .valueError

/-- State of the inner loop of `write` after some keys: next offset, block size, shapes and the last array's dtype. -/
structure WriteAcc where
  offset : Nat
  blockSize : Nat
  shapes : List (List Nat)
  lastDtype : Option DType

/-- logix/logging/mmap.py:61-67: the inner loop over `write_order_key` for one sample. Returns the stores performed before
the loop ends or raises, and the result. `arr.nbytes` on a dictionary raises AttributeError. -/
def writeKeys (name : PyStr) (total : Nat) (d : Nested Arr) :
    List Path → WriteAcc → List Action × Py WriteAcc
  | [], acc => ([], .ok acc)
  | key :: rest, acc =>
    match getFromNested d key with
    | .node _ => ([], .error .attributeError)
    | .leaf arr =>
      match reduceMul arr.shape with
      | .error e => ([], .error e)
      | .ok n =>
        match storeSlice total acc.offset arr.bytes with
        | .error e => ([], .error e)
        | .ok bs =>
          let r := writeKeys name total d rest
            { offset := acc.offset + arr.nbytes, blockSize := acc.blockSize + n,
              shapes := acc.shapes ++ [arr.shape], lastDtype := some arr.dtype }
          (.store name acc.offset bs :: r.1, r.2)

/-- logix/logging/mmap.py:55-77: the outer loop over the samples. With an empty write order `arr` is unbound
at line 75. (Python's `arr` survives from one sample to the next, but the write order is the same for all samples, so it is
unbound at line 75 either at the first sample or never.) -/
def writeEntries (name : PyStr) (total : Nat) (order : List Path) :
    List (PyStr × Nested Arr) → Nat → List Action × Py (List MetaEntry)
  | [], _ => ([], .ok [])
  | (dataId, d) :: rest, offset =>
    match writeKeys name total d order ⟨offset, 0, [], none⟩ with
    | (acts, .error e) => (acts, .error e)
    | (acts, .ok acc) =>
      match acc.lastDtype with
      | none => (acts, .error .unboundLocalError)
      | some dt =>
        let r := writeEntries name total order rest acc.offset
        (acts ++ r.1,
          match r.2 with
          | .error e => .error e
          | .ok ms => .ok (⟨dataId, order, offset, acc.shapes, acc.blockSize, dt⟩ :: ms))

/-- logix/logging/mmap.py:49-51 `total_size`: the bytes of *all* arrays of all samples. -/
def totalSize (buffer : List (PyStr × Nested Arr)) : Nat :=
  (buffer.map fun e => (e.2.leaves.map fun pa => pa.2.nbytes).sum).sum

/-- logix/logging/mmap.py:41-83 `MemoryMapHandler.write` with `dtype="uint8"`: all effects on the directory in program order
and whether it raises. `np.memmap(mode="w+")` creates (or truncates) the data file and fills it with zeros; with
`total_size == 0` it raises ValueError after the file was created (NumPy before 2.2; later versions map one byte instead, not
modelled). The metadata file is opened (truncated) and then written. -/
def writeChunk (filename : PyStr) (buffer : List (PyStr × Nested Arr)) (order : List Path) :
    List Action × Py Unit :=
  let (dataName, metaName) := writeNames filename
  let total := totalSize buffer
  if total = 0 then ([.create dataName (.data [])], .error .valueError)
  else
    let r := writeEntries dataName total order buffer 0
    let acts := .create dataName (.data (List.replicate total 0)) :: r.1
    match r.2 with
    | .error e => (acts, .error e)
    | .ok ms => (acts ++ [.create metaName .incomplete, .create metaName (.metadata ms)], .ok ())

/-- logix/logging/log_loader_utils.py:62-74 and mmap.py:85-103: open a data file. NumPy cannot map an empty file
(ValueError). The map is taken as a snapshot of the file. -/
def openData (fs : FS) (name : PyStr) : Py (List UInt8) :=
  match Dict.get? fs name with
  | none => .error .fileNotFoundError
  | some (.data []) => .error .valueError
  | some (.data bs) => .ok bs
  | some _ => .error .valueError

/-- logix/logging/mmap.py:105-113 `read_metafile`. -/
def readMetafile (fs : FS) (name : PyStr) : Py (List MetaEntry) :=
  match Dict.get? fs name with
  | none => .error .fileNotFoundError
  | some (.metadata m) => .ok m
  | some _ => .error .jsonDecodeError

/-- logix/logging/log_loader_utils.py:77-87 `get_mmap_metadata`, the loop: an id that is already present is skipped
(with a warning). -/
def addMetadata (index : Dict PyStr (Nat × MetaEntry)) (chunk : Nat) :
    List MetaEntry → Dict PyStr (Nat × MetaEntry)
  | [] => index
  | e :: rest =>
    if Dict.contains index e.dataId then addMetadata index chunk rest
    else addMetadata (Dict.set index e.dataId (chunk, e)) chunk rest

/-- `LogDataset` after construction, logix/logging/log_loader.py:28-41. -/
structure Dataset where
  memmaps : List (List UInt8)
  index : Dict PyStr (Nat × MetaEntry)

/-- logix/logging/log_loader.py:42-55 `fetch_data`. -/
def fetchData (fs : FS) : List PyStr → Dataset → Py Dataset
  | [], ds => .ok ds
  | ci :: rest, ds =>
    match openData fs (loaderDataFile ci) with
    | .error e => .error e
    | .ok bs =>
      match readMetafile fs (loaderMetaFile ci) with
      | .error e => .error e
      | .ok m => fetchData fs rest ⟨ds.memmaps ++ [bs], addMetadata ds.index ds.memmaps.length m⟩

/-- logix/logging/log_loader.py:29-41 `LogDataset.__init__`. `listing` is what `os.listdir` returns. -/
def openDataset (fs : FS) (listing : List PyStr) : Py Dataset :=
  match findChunkIndices listing with
  | .error e => .error e
  | .ok cis => fetchData fs cis ⟨[], []⟩

/-- logix/logging/log_loader.py:84-85 `__len__`. -/
def Dataset.len (ds : Dataset) : Nat := ds.index.length

/-- logix/logging/log_loader_utils.py:121-129 `get_flatten_item`. NumPy raises TypeError when the buffer is too small. -/
def getFlattenItem (mmap : List UInt8) (offset blockSize : Nat) (dtype : DType) : Py Arr :=
  let n := blockSize * dtype.itemsize
  if h : offset + n ≤ mmap.length then
    .ok ⟨dtype, [blockSize], (mmap.drop offset).take n, by
      simp [numel, List.length_take, List.length_drop]; omega⟩
  else .error .typeError

/-- logix/logging/log_loader_utils.py:132-136 `unflatten_tensor`: slice (clipped) and view; `view` raises RuntimeError when the
number of elements does not match. -/
def unflattenTensor (flat : Arr) (shape : List Nat) (start : Nat) : Py (Arr × Nat) :=
  match reduceMul shape with
  | .error e => .error e
  | .ok n =>
    let bs := (flat.bytes.drop (start * flat.dtype.itemsize)).take (n * flat.dtype.itemsize)
    if h : bs.length = numel shape * flat.dtype.itemsize then
      .ok (⟨flat.dtype, shape, bs, h⟩, start + n)
    else .error .runtimeError

/-- logix/logging/log_loader.py:73-78: store a tensor at a path, creating dictionaries on the way. An empty path raises
IndexError (`path[-1]`); going through a tensor is an error (TypeError here). -/
def setPath (d : List (PyStr × Nested α)) : Path → α → Py (List (PyStr × Nested α))
  | [], _ => .error .indexError
  | [k], a => .ok (Dict.set d k (.leaf a))
  | k :: k' :: ks, a =>
    match Dict.get? d k with
    | none =>
      match setPath [] (k' :: ks) a with
      | .error e => .error e
      | .ok sub => .ok (Dict.set d k (.node sub))
    | some (.node m) =>
      match setPath m (k' :: ks) a with
      | .error e => .error e
      | .ok sub => .ok (Dict.set d k (.node sub))
    | some (.leaf _) => .error .typeError

/-- logix/logging/log_loader.py:69-78: the loop that rebuilds the nested dictionary. `entry["shape"][i]` raises IndexError when there
are fewer shapes than paths. -/
def unflattenLoop (flat : Arr) : List Path → List (List Nat) → Nat → List (PyStr × Nested Arr) →
    Py (Nat × List (PyStr × Nested Arr))
  | [], _, start, d => .ok (start, d)
  | _ :: _, [], _, _ => .error .indexError
  | p :: ps, s :: ss, start, d =>
    match unflattenTensor flat s start with
    | .error e => .error e
    | .ok (t, start') =>
      match setPath d p t with
      | .error e => .error e
      | .ok d' => unflattenLoop flat ps ss start' d'

/-- logix/logging/log_loader.py:57-66: the part of `__getitem__` shared by both views. -/
def Dataset.getFlat (ds : Dataset) (i : Nat) : Py (PyStr × MetaEntry × Arr) :=
  match ds.index[i]? with
  | none => .error .indexError
  | some (dataId, chunk, entry) =>
    match ds.memmaps[chunk]? with
    | none => .error .indexError
    | some mmap =>
      match getFlattenItem mmap entry.offset entry.blockSize entry.dtype with
      | .error e => .error e
      | .ok flat => .ok (dataId, entry, flat)

/-- logix/logging/log_loader.py:57-68 `__getitem__` with `flatten=True`. (Negative indices are not modelled.) -/
def Dataset.getItemFlat (ds : Dataset) (i : Nat) : Py (PyStr × Arr) :=
  match ds.getFlat i with
  | .error e => .error e
  | .ok (dataId, _, flat) => .ok (dataId, flat)

/-- logix/logging/log_loader.py:57-82 `__getitem__` with `flatten=False`. -/
def Dataset.getItem (ds : Dataset) (i : Nat) : Py (PyStr × Nested Arr) :=
  match ds.getFlat i with
  | .error e => .error e
  | .ok (dataId, entry, flat) =>
    match unflattenLoop flat entry.path entry.shape 0 [] with
    | .error e => .error e
    | .ok (start, d) =>
      if entry.blockSize = start then .ok (dataId, .node d) else .error .assertionError

end Logix
