/-
A logging session: logix/logix.py (contexts, saving, get_log), logix/logging/logger.py (hooks), logix/batch_info.py, logix/statistic/log.py,
and the part of PyTorch they rely on (hooks and gradients arriving at tensors). Tensors are objects in a heap, because the batch log
and the save buffer refer to tensors of the user's model and are changed in place.
-/
import Verif.Model.Stats
import Verif.Model.Saver

namespace Logix
variable {K : Type}

/-- A tensor object. `leaf` is `tensor.is_leaf`, `reqGrad` is `tensor.requires_grad`. Views and strides are not modelled. -/
structure TObj (K : Type) where
  val : Tensor K
  dtype : DType
  reqGrad : Bool
  leaf : Bool
  deriving DecidableEq

/-- A reference to a tensor object: one made by the user's program (inputs, activations and gradients of the model), or one made by LogIX. -/
inductive TRef where
  | user (n : Nat)
  | own (n : Nat)
  deriving DecidableEq

/-- The functions that LogIX registers on tensors: `_grad_backward_hook_fn` (logix/logging/logger.py:200-219) with the module, its input and
name, and `_tensor_backward_hook_fn` (logger.py:249-272). -/
inductive HookFn where
  | grad (mod input : Nat) (name : PyStr)
  | activation (name : PyStr)
  deriving DecidableEq

/-- A hook on a module (PyTorch: an entry in one of the module's hook dictionaries), identified by its handle. -/
structure ModHook where
  id : Nat
  mod : Nat
  name : PyStr
  deriving DecidableEq

/-- A hook on the tensor `out`. -/
structure TensorHook where
  id : Nat
  out : Nat
  fn : HookFn
  deriving DecidableEq

/-- A finished call of a module, as autograd remembers it: its output and the names of the full backward hooks that were on the module when
it was called. PyTorch collects these hooks at the start of the call; removing them from the module later has no effect on this call. -/
structure PastCall where
  out : Nat
  mod : Nat
  names : List PyStr
  deriving DecidableEq

/-- A value in the save buffer: `to_numpy(value[idx])`, logix/logging/log_saver.py:49. For a tensor on the CPU `.cpu().detach().numpy()` is a
view of the same memory (logix/utils.py:77); for others it is a copy. -/
inductive BVal (K : Type) where
  | view (r : TRef) (idx : Nat)
  | copy (dtype : DType) (t : Tensor K)

/-- What does not change during a session. `kind` gives the type of each module, `encode` the bytes of a number in a given dtype.
`fail...` give the statistics as they are after an update, `finalize` or `clear` raised (not modelled further: the theorems hold
whatever they are). -/
structure SEnv (K : Type) where
  lib : Lib K
  kind : Nat → ModKind
  cpuOffload : Bool
  dtype : Option DType
  encode : (d : DType) → K → { b : List UInt8 // b.length = d.itemsize }
  failUpdate : Plugin → StatCall K → LState K → LState K
  failOp : StateOp K → LState K → LState K

/-- A `LogIX` object with its logger, batch information and saver (logix/logix.py:61-99, logix/logging/logger.py:31-57,
logix/batch_info.py:22-26), and what PyTorch keeps: tensors, hooks and finished calls. The save buffer of `saver` is kept in
`buffer`/`bufferSize` by reference; the saver's own fields for it stay empty. `paths` is `state.model_module["path"]`. -/
structure Sess (K : Type) where
  -- PyTorch
  user : List (TObj K)
  own : List (TObj K)
  nextId : Nat
  pre : List ModHook
  bwd : List ModHook
  fwd : List ModHook
  tens : List TensorHook
  calls : List PastCall
  -- logger
  opt : LogOption
  modules : List Nat
  names : Dict Nat PyStr
  hPre : List Nat
  hBwd : List Nat
  hFwd : List Nat
  hTens : List Nat
  -- batch information
  dataId : Option (List PyStr)
  mask : Option (Tensor K)
  log : Dict PyStr (Dict PyStr TRef)
  -- flags
  save : Bool
  saveBatch : Bool
  -- statistics
  st : LState K
  -- saver
  saver : Saver
  buffer : Dict PyStr (Dict PyStr (Dict PyStr (BVal K)))
  bufferSize : Nat
  paths : List Path
  fs : FS

/-- logix/logix.py:61-99 `LogIX.__init__`; the log directory may contain files. -/
def Sess.init (numWorkers : Nat) (threshold : Int) (fs : FS) : Sess K where
  user := []
  own := []
  nextId := 0
  pre := []
  bwd := []
  fwd := []
  tens := []
  calls := []
  opt := LogOption.init
  modules := []
  names := []
  hPre := []
  hBwd := []
  hFwd := []
  hTens := []
  dataId := none
  mask := none
  log := []
  save := false
  saveBatch := false
  st := LState.init
  saver := Saver.init 0 numWorkers threshold
  buffer := []
  bufferSize := 0
  paths := []
  fs := fs

/-- A step of the program: the new state and the exception, if one was raised. The state reached when an exception is raised is kept. -/
abbrev SAct (K : Type) := Sess K → Sess K × Option PyErr

/-- One step after the other; an exception skips the rest. -/
def SAct.seq (f g : SAct K) : SAct K := fun s =>
  match f s with
  | (s', some e) => (s', some e)
  | (s', none) => g s'

/-- A loop; an exception leaves it. -/
def SAct.each {α : Type} (f : α → SAct K) : List α → SAct K
  | [] => fun s => (s, none)
  | a :: rest => (f a).seq (SAct.each f rest)

namespace Sess

/-- The object behind a reference. -/
def obj (s : Sess K) : TRef → Option (TObj K)
  | .user n => s.user[n]?
  | .own n => s.own[n]?

/-- LogIX makes a new tensor. -/
def alloc (s : Sess K) (o : TObj K) : Sess K × TRef := ({ s with own := s.own ++ [o] }, .own s.own.length)

/-- An in-place operation. -/
def setVal (s : Sess K) (r : TRef) (v : Tensor K) : Sess K :=
  match r with
  | .user n => { s with user := s.user.modify n fun o => { o with val := v } }
  | .own n => { s with own := s.own.modify n fun o => { o with val := v } }

/-- logix/statistic/log.py:24-43 `Log.update`: the first tensor of a module and log type is stored itself, later ones are added to it in place. -/
def logUpdate [Semiring K] (name ty : PyStr) (r : TRef) : SAct K := fun s =>
  let tys := (Dict.get? s.log name).getD []
  match Dict.get? tys ty with
  | none => ({ s with log := Dict.set s.log name (Dict.set tys ty r) }, none)
  | some r₀ =>
    match s.obj r₀, s.obj r with
    | some a, some b =>
      match a.val.add_ b.val with
      | .ok v => (s.setVal r₀ v, none)
      | .error e => (s, some e)
    | _, _ => (s, some .runtimeError)

/-- `plugin.update(...)` with a tensor: `Log` writes to the batch log, the others to the statistics. -/
def plugin [Semiring K] (E : SEnv K) (mod : Option ModKind) (name : PyStr) (ty : LogType) (r : TRef) (p : Plugin) : SAct K := fun s =>
  match p with
  | .log => logUpdate name ty.name r s
  | p =>
    match s.obj r with
    | none => (s, some .runtimeError)
    | some o =>
      let c : StatCall K := ⟨mod, name, ty, o.val, s.mask, E.cpuOffload⟩
      match pluginUpdate E.lib p s.st c with
      | .ok st => ({ s with st := st }, none)
      | .error e => ({ s with st := E.failUpdate p c s.st }, some e)

/-- `t.to(dtype=self.dtype)` (logix/logging/logger.py:131-132, 165-166, 206-207, 236-237, 260-261): the same object if it has that dtype,
otherwise a new one. Rounding is not modelled. -/
def convert (E : SEnv K) (s : Sess K) (r : TRef) : Sess K × TRef :=
  match E.dtype, s.obj r with
  | some d, some o => if o.dtype = d then (s, r) else s.alloc { o with dtype := d, leaf := !o.reqGrad }
  | _, _ => (s, r)

/-- Does the forward hook multiply by the mask (logix/logging/logger.py:120-129)? -/
def maskApplies (mask : Option (Tensor K)) (a : Tensor K) : Bool :=
  match mask with
  | none => false
  | some m =>
    if m.shape.length ≠ a.shape.length then m.shape.getLast? == a.shape.dropLast.getLast? else m.shape.getLast? == a.shape.getLast?

/-- logix/logging/logger.py:118-129: the masked activations are a new tensor. -/
def masked [Semiring K] (s : Sess K) (r : TRef) : Sess K × Py TRef :=
  match s.obj r with
  | none => (s, .error .runtimeError)
  | some o =>
    match maskActivations s.mask o.val with
    | .error e => (s, .error e)
    | .ok v =>
      if maskApplies s.mask o.val then
        let o' := { o with val := v, leaf := !o.reqGrad }
        ((s.alloc o').1, .ok (s.alloc o').2)
      else (s, .ok r)

/-- logix/logging/logger.py:103-143 `_forward_hook_fn` for a module called with the single tensor `x`. -/
def forwardHook [Semiring K] (E : SEnv K) (mod x : Nat) (name : PyStr) : SAct K := fun s =>
  match s.masked (.user x) with
  | (s, .error e) => (s, some e)
  | (s, .ok r) =>
    let (s, r) := s.convert E r
    SAct.each (plugin E (some (E.kind mod)) name .forward r) s.opt.forward s

/-- logix/logging/logger.py:145-177 `_backward_hook_fn` with the single output gradient `g`. -/
def backwardHook [Semiring K] (E : SEnv K) (mod g : Nat) (name : PyStr) : SAct K := fun s =>
  let (s, r) := s.convert E (.user g)
  SAct.each (plugin E (some (E.kind mod)) name .backward r) s.opt.backward s

/-- logix/logging/logger.py:200-219 `_grad_backward_hook_fn`: the gradient `g` has arrived at the output of a call with input `x`. -/
def gradBackwardHook [Semiring K] (E : SEnv K) (mod x g : Nat) (name : PyStr) : SAct K := fun s =>
  match gradHookCheck s.opt with
  | .error e => (s, some e)
  | .ok false => (s, none)
  | .ok true =>
    match s.obj (.user x), s.obj (.user g) with
    | some a, some b =>
      match computePerSampleGradient a.val b.val (E.kind mod) with
      | .error e => (s, some e)
      | .ok v =>
        let (s, r) := s.alloc ⟨v, b.dtype, false, true⟩
        let (s, r) := s.convert E r
        SAct.each (plugin E (some (E.kind mod)) name .grad r) (s.opt.grad.take 1) s
    | _, _ => (s, some .runtimeError)

/-- logix/logging/logger.py:249-272 `_tensor_backward_hook_fn` -/
def tensorBackwardHook [Semiring K] (E : SEnv K) (g : Nat) (name : PyStr) : SAct K := fun s =>
  let (s, r) := s.convert E (.user g)
  SAct.each (plugin E none name .backward r) s.opt.backward s

/-- PyTorch: `tensor.register_hook` raises RuntimeError on a tensor that does not require grad. The handle is appended to `tensor_hooks`. -/
def registerTensorHook (y : Nat) (fn : HookFn) : SAct K := fun s =>
  match s.obj (.user y) with
  | some o =>
    if o.reqGrad then
      ({ s with nextId := s.nextId + 1, tens := s.tens ++ [⟨s.nextId, y, fn⟩], hTens := s.hTens ++ [s.nextId] }, none)
    else (s, some .runtimeError)
  | none => (s, some .runtimeError)

/-- logix/logging/logger.py:179-222 `_grad_hook_fn`: registers a hook on the output, whatever the options. -/
def gradHook (mod x y : Nat) (name : PyStr) : SAct K := registerTensorHook y (.grad mod x name)

/-- PyTorch, `Module._call_impl`: a module is called with the tensor `x` and returns `y`. The full backward hooks are collected, the forward
pre-hooks run, the module computes `y`, the forward hooks run. If a pre-hook raises there is no output. (There is no call without tensors
`x` and `y`; the model gives an error.) -/
def forward [Semiring K] (E : SEnv K) (mod x y : Nat) : SAct K := fun s =>
  if s.user.length ≤ x ∨ s.user.length ≤ y then (s, some .runtimeError) else
  let names := (s.bwd.filter fun h => h.mod = mod).map ModHook.name
  SAct.seq (SAct.each (fun h => forwardHook E mod x h.name) (s.pre.filter fun h => h.mod = mod))
    (SAct.seq (fun s => ({ s with calls := s.calls ++ [⟨y, mod, names⟩] }, none))
      (fun s => SAct.each (fun h => gradHook mod x y h.name) (s.fwd.filter fun h => h.mod = mod) s)) s

/-- PyTorch: the gradient `g` arrives at the tensor `y`, the hooks on it run in the order of registration. -/
def gradAt [Semiring K] (E : SEnv K) (y g : Nat) : SAct K := fun s =>
  SAct.each (fun h => match h.fn with
    | .grad mod x name => gradBackwardHook E mod x g name
    | .activation name => tensorBackwardHook E g name) (s.tens.filter fun h => h.out = y) s

/-- PyTorch: the full backward hooks of the call with output `y` run, the gradient of the output being `g`. -/
def backward [Semiring K] (E : SEnv K) (y g : Nat) : SAct K := fun s =>
  SAct.each (fun c => SAct.each (fun name => backwardHook E c.mod g name) c.names) (s.calls.filter fun c => c.out = y) s

/-- logix/logging/logger.py:296-308 `register_all_tensor_hooks` with 224-247 `_tensor_forward_hook_fn` -/
def watchActivation [Semiring K] (E : SEnv K) : List (PyStr × Nat) → SAct K :=
  SAct.each fun d => SAct.seq
    (fun s =>
      let (s, r) := s.convert E (.user d.2)
      SAct.each (plugin E none d.1 .forward r) s.opt.forward s)
    (registerTensorHook d.2 (.activation d.1))

/-- logix/logging/logger.py:346-358, the first part of `clear`: all handles in the four lists are removed from PyTorch. -/
def clearHooks (s : Sess K) : Sess K := { s with
  pre := s.pre.filter fun h => h.id ∉ s.hPre
  bwd := s.bwd.filter fun h => h.id ∉ s.hBwd
  fwd := s.fwd.filter fun h => h.id ∉ s.hFwd
  tens := s.tens.filter fun h => h.id ∉ s.hTens
  hPre := []
  hBwd := []
  hFwd := []
  hTens := [] }

/-- logix/logging/logger.py:283-294: the body of the loop of `register_all_module_hooks`. -/
def registerModule (mod : Nat) : SAct K := fun s =>
  match Dict.get? s.names mod with
  | none => (s, some .keyError)
  | some name => ({ s with
      nextId := s.nextId + 3
      pre := s.pre ++ [⟨s.nextId, mod, name⟩]
      bwd := s.bwd ++ [⟨s.nextId + 1, mod, name⟩]
      fwd := s.fwd ++ [⟨s.nextId + 2, mod, name⟩]
      hPre := s.hPre ++ [s.nextId]
      hBwd := s.hBwd ++ [s.nextId + 1]
      hFwd := s.hFwd ++ [s.nextId + 2] }, none)

/-- logix/logging/logger.py:274-294 `register_all_module_hooks` -/
def registerAllModuleHooks : SAct K := fun s => SAct.each registerModule s.modules s

/-- logix/batch_info.py:28-31 `clear`, followed by the assignments of `data_id` and `mask` (logix/logix.py:258-260, 299-302). -/
def setBatch (ids : List PyStr) (mask : Option (Tensor K)) (s : Sess K) : Sess K :=
  { s with dataId := some ids, mask := mask, log := [] }

/-- logix/logix.py:244-264 `__call__` -/
def call (ids : List PyStr) (mask : Option (Tensor K)) (save : Bool) : SAct K := fun s =>
  ({ s.setBatch ids mask with saveBatch := save }, none)

/-- logix/logix.py:266-276 `__enter__` -/
def enter : SAct K := fun s => registerAllModuleHooks s.clearHooks

/-- `value[idx]` for a tensor whose first dimension is the batch; IndexError out of range and on a zero-dimensional tensor. -/
def rowOf [Zero K] (t : Tensor K) (idx : Nat) : Py (Tensor K) :=
  match t.shape with
  | [] => .error .indexError
  | b :: s => if idx < b then .ok (Tensor.ofFn t.dev s fun i => t.el (idx :: i)) else .error .indexError

/-- logix/logging/log_saver.py:49-51: the value put into the buffer, and its size. -/
def bufferVal [Zero K] (s : Sess K) (r : TRef) (idx : Nat) : Py (BVal K × Nat) :=
  match s.obj r with
  | none => .error .indexError
  | some o =>
    match rowOf o.val idx with
    | .error e => .error e
    | .ok t => .ok (if o.val.dev = .cpu then .view r idx else .copy o.dtype (t.onDev .cpu), numel t.shape)

/-- logix/logging/log_saver.py:46-53 `_add` on the dictionary of one module. -/
def addTypes [Zero K] (s : Sess K) (idx : Nat) :
    List (PyStr × TRef) → Dict PyStr (BVal K) × Nat → (Dict PyStr (BVal K) × Nat) × Option PyErr
  | [], st => (st, none)
  | (k, r) :: rest, (buf, n) =>
    match s.bufferVal r idx with
    | .error e => ((buf, n), some e)
    | .ok (v, m) => addTypes s idx rest (Dict.set buf k v, n + m)

/-- logix/logging/log_saver.py:46-53 `_add` on the log. -/
def addModules [Zero K] (s : Sess K) (idx : Nat) :
    List (PyStr × Dict PyStr TRef) → Dict PyStr (Dict PyStr (BVal K)) × Nat →
      (Dict PyStr (Dict PyStr (BVal K)) × Nat) × Option PyErr
  | [], st => (st, none)
  | (k, m) :: rest, (buf, n) =>
    let r := addTypes s idx m ((Dict.get? buf k).getD [], n)
    match r.2 with
    | some e => ((Dict.set buf k r.1.1, r.1.2), some e)
    | none => addModules s idx rest (Dict.set buf k r.1.1, r.1.2)

/-- logix/logging/log_saver.py:55-56: the loop of `buffer_write`. -/
def bufferWriteFrom [Zero K] : Nat → List PyStr → SAct K
  | _, [] => fun s => (s, none)
  | idx, did :: rest => fun s =>
    let r := addModules s idx s.log ((Dict.get? s.buffer did).getD [], s.bufferSize)
    let s' := { s with buffer := Dict.set s.buffer did r.1.1, bufferSize := r.1.2 }
    match r.2 with
    | some e => (s', some e)
    | none => bufferWriteFrom (idx + 1) rest s'

/-- logix/logging/log_saver.py:39-56 `buffer_write`; iterating over `None` raises TypeError. -/
def bufferWrite [Zero K] : SAct K := fun s =>
  match s.dataId with
  | none => (s, some .typeError)
  | some ids => bufferWriteFrom 0 ids s

/-- The bytes of a tensor as a NumPy array. -/
def toArr (E : SEnv K) (d : DType) (t : Tensor K) : Arr :=
  ⟨d, t.shape, t.data.flatMap fun x => (E.encode d x).1, by
    have h : ∀ l : List K, (l.flatMap fun x => (E.encode d x).1).length = l.length * d.itemsize := by
      intro l
      induction l with
      | nil => simp
      | cons x xs ih => rw [List.flatMap_cons, List.length_append, ih, (E.encode d x).2, List.length_cons, Nat.succ_mul, Nat.add_comm]
    rw [h, t.wf]⟩

/-- The array that a buffered value is at this moment (views are read when they are written to disk). -/
def readVal [Zero K] (E : SEnv K) (s : Sess K) : BVal K → Arr
  | .copy d t => toArr E d t
  | .view r idx =>
    match s.obj r with
    | some o => toArr E o.dtype (Tensor.ofFn o.val.dev o.val.shape.tail fun i => o.val.el (idx :: i))
    | none => ⟨.uint8, [], [0], rfl⟩

/-- The tensors of the batch log as arrays. -/
def readLog (E : SEnv K) (s : Sess K) : List (PyStr × Nested Arr) :=
  s.log.map fun m => (m.1, .node (m.2.map fun t => (t.1, .leaf (match s.obj t.2 with
    | some o => toArr E o.dtype o.val
    | none => ⟨.uint8, [], [0], rfl⟩))))

/-- The save buffer as it is at this moment. -/
def readBuffer [Zero K] (E : SEnv K) (s : Sess K) : Dict PyStr (List (PyStr × Nested Arr)) :=
  s.buffer.map fun e => (e.1, e.2.map fun m => (m.1, .node (m.2.map fun t => (t.1, .leaf (s.readVal E t.2)))))

/-- The saver with the contents of its buffer as they are at this moment. -/
def valueSaver [Zero K] (E : SEnv K) (s : Sess K) : Saver := { s.saver with buffer := s.readBuffer E, bufferSize := s.bufferSize }

/-- An operation of the saver (logix/logging/log_saver.py, modelled in Model/Saver.lean) on the buffer as it is now. -/
def withSaver [Zero K] (E : SEnv K) (f : List Path → FS → Saver → FS × Saver × Py Unit) : SAct K := fun s =>
  let r := f s.paths s.fs (s.valueSaver E)
  ({ s with
      fs := r.1
      saver := { r.2.1 with buffer := [], bufferSize := 0 }
      buffer := if r.2.1.buffer.isEmpty then [] else s.buffer
      bufferSize := r.2.1.bufferSize },
    match r.2.2 with | .ok _ => none | .error e => some e)

/-- logix/logging/logger.py:76-79 `save_log` -/
def saveLog [Zero K] (E : SEnv K) : SAct K := bufferWrite.seq (withSaver E fun order fs sv => sv.flush order fs)

/-- logix/logging/logger.py:84-93: a gradient statistic of one module, from the log. A module without logged gradient raises AttributeError
(`binfo.log[module_name]["grad"]` is then a new empty dictionary; that it stays in the log is not modelled). -/
def gradStat [Semiring K] (E : SEnv K) (p : Plugin) (name : PyStr) : SAct K := fun s =>
  match (Dict.get? s.log name).bind fun tys => Dict.get? tys (LogType.name .grad) with
  | none => (s, some .attributeError)
  | some r => plugin E none name .grad r p s

/-- logix/logging/logger.py:81-101 `update` -/
def update [Semiring K] (E : SEnv K) (save : Bool) : SAct K := fun s =>
  SAct.seq (SAct.each (fun p s => SAct.each (gradStat E p) (Dict.keys s.log) s) s.opt.grad.tail)
    (if save then saveLog E else fun s => (s, none)) s

/-- logix/logix.py:278-285 `__exit__`; it is called in the same way when the body of the `with` statement raised. -/
def exit [Semiring K] (E : SEnv K) : SAct K := fun s => update E (s.saveBatch || s.save) s

/-- logix/logix.py:287-306 `start` -/
def start (ids : List PyStr) (mask : Option (Tensor K)) : SAct K := fun s => registerAllModuleHooks (s.setBatch ids mask).clearHooks

/-- logix/logix.py:308-313 `end` -/
def «end» [Semiring K] (E : SEnv K) (save : Bool) : SAct K := fun s => update E (save || s.save) s

/-- logix/logix.py:232-242 `log` and logix/logging/logger.py:59-74 -/
def logOp [Semiring K] (E : SEnv K) (ids : List PyStr) (mask : Option (Tensor K)) : SAct K := fun s => update E false (s.setBatch ids mask)

/-- logix/logix.py:121-148 `watch`, from the modules that pass `module_check` on: logix/logging/logger.py:310-319 `add_module` for each, then
the paths of all watched modules (logix/utils.py:106-113). Without any module `reduce` raises TypeError. -/
def watch (sel : List (PyStr × Nat)) : SAct K := fun s =>
  let s := { s with
    modules := s.modules ++ sel.map Prod.snd
    names := sel.foldl (fun d (e : PyStr × Nat) => Dict.set d e.2 e.1) s.names }
  if s.names.isEmpty then (s, some .typeError)
  else ({ s with paths := s.names.map fun (e : Nat × PyStr) => [e.2, LogType.name .grad] }, none)

/-- An operation on the statistics. -/
def stateOp [Field K] (E : SEnv K) (o : StateOp K) : SAct K := fun s =>
  match stepOp E.lib s.st o with
  | .ok st => ({ s with st := st }, none)
  | .error e => ({ s with st := E.failOp o s.st }, some e)

/-- logix/logix.py:522-535 `finalize` (the configuration file is not modelled here) -/
def finalize [Field K] (E : SEnv K) (dir : StateDir K) : SAct K :=
  (stateOp E (.finalize dir)).seq (withSaver E fun order fs sv => sv.finalize order fs)

/-- logix/logix.py:558-563 `clear` with logix/logging/logger.py:336-365 -/
def clear [Field K] (E : SEnv K) : SAct K :=
  (stateOp E .clear).seq fun s => ({ s.clearHooks with modules := [], names := [], buffer := [], bufferSize := 0 }, none)

/-- logix/logix.py:537-544 `setup` -/
def setup (kw : OptionKwargs) : SAct K := fun s =>
  let r := s.opt.setup kw
  ({ s with opt := r.1 }, match r.2 with | .ok _ => none | .error e => some e)

/-- `copy.deepcopy` of a tensor: a new tensor; PyTorch raises RuntimeError for tensors that are not leaves of the graph.
The tensors are read in the state `s₀` in which the copy begins (making copies changes no tensor). -/
def copyTensor (s₀ s : Sess K) (r : TRef) : Sess K × Py TRef :=
  match s₀.obj r with
  | some o => if o.leaf then ((s.alloc o).1, .ok (s.alloc o).2) else (s, .error .runtimeError)
  | none => (s, .error .runtimeError)

/-- `copy.deepcopy` of the dictionary of one module. Two entries that are the same tensor are copied twice (deepcopy copies it once). -/
def copyTypes (s₀ : Sess K) : List (PyStr × TRef) → Sess K → Sess K × Py (Dict PyStr TRef)
  | [], s => (s, .ok [])
  | (k, r) :: rest, s =>
    match copyTensor s₀ s r with
    | (s, .error e) => (s, .error e)
    | (s, .ok r') =>
      match copyTypes s₀ rest s with
      | (s, .error e) => (s, .error e)
      | (s, .ok d) => (s, .ok ((k, r') :: d))

/-- `copy.deepcopy` of the log. -/
def copyLog (s₀ : Sess K) : List (PyStr × Dict PyStr TRef) → Sess K → Sess K × Py (Dict PyStr (Dict PyStr TRef))
  | [], s => (s, .ok [])
  | (k, m) :: rest, s =>
    match copyTypes s₀ m s with
    | (s, .error e) => (s, .error e)
    | (s, .ok m') =>
      match copyLog s₀ rest s with
      | (s, .error e) => (s, .error e)
      | (s, .ok d) => (s, .ok ((k, m') :: d))

/-- logix/logix.py:365-378 `get_log(copy=True)`. With `copy=False` the result is the pair of `dataId` and the live `log` itself. -/
def getLogCopy (s : Sess K) : Sess K × Py (Option (List PyStr) × Dict PyStr (Dict PyStr TRef)) :=
  match copyLog s s.log s with
  | (s, .error e) => (s, .error e)
  | (s, .ok d) => (s, .ok (s.dataId, d))

end Sess

/-- What a program with LogIX does. The first group are events of the user's model: a tensor is made; a module is called with `x` and returns
`y`; the gradient `g` arrives at the tensor `y`; the full backward hooks of the call with output `y` run. They can come in any order, and
the program goes on after an exception (in a handler). -/
inductive SOp (K : Type) where
  | alloc (o : TObj K)
  | forward (mod x y : Nat)
  | gradAt (y g : Nat)
  | backward (y g : Nat)
  | watchActivation (d : List (PyStr × Nat))
  | call (ids : List PyStr) (mask : Option (Tensor K)) (save : Bool)
  | enter
  | exit
  | start (ids : List PyStr) (mask : Option (Tensor K))
  | «end» (save : Bool)
  | log (ids : List PyStr) (mask : Option (Tensor K))
  | save (enable : Bool)
  | eval
  | setup (kw : OptionKwargs)
  | watch (sel : List (PyStr × Nat))
  | analysis (o : StateOp K)
  | getLogCopy
  | finalize (dir : StateDir K)
  | clear

/-- One operation: logix/logix.py:546-556 for `save` and `eval`, the definitions above for the others. -/
def SOp.run [Field K] (E : SEnv K) : SOp K → SAct K
  | .alloc o => fun s => ({ s with user := s.user ++ [o] }, none)
  | .forward mod x y => Sess.forward E mod x y
  | .gradAt y g => Sess.gradAt E y g
  | .backward y g => Sess.backward E y g
  | .watchActivation d => Sess.watchActivation E d
  | .call ids mask sv => Sess.call ids mask sv
  | .enter => Sess.enter
  | .exit => Sess.exit E
  | .start ids mask => Sess.start ids mask
  | .end sv => Sess.end E sv
  | .log ids mask => Sess.logOp E ids mask
  | .save enable => fun s => ({ s with save := enable }, none)
  | .eval => fun s => ({ s with save := false }, none)
  | .setup kw => Sess.setup kw
  | .watch sel => Sess.watch sel
  | .analysis o => Sess.stateOp E o
  | .getLogCopy => fun s => (s.getLogCopy.1, match s.getLogCopy.2 with | .ok _ => none | .error e => some e)
  | .finalize dir => Sess.finalize E dir
  | .clear => Sess.clear E

/-- A history: the operations one after the other, going on after exceptions. -/
def runHistory [Field K] (E : SEnv K) : List (SOp K) → Sess K → Sess K
  | [], s => s
  | o :: rest, s => runHistory E rest (o.run E s).1

end Logix
