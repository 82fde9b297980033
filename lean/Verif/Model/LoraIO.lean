/-
Saving and restoring LoRA weights: logix/logix.py:164-230 (`add_lora`), 475-487 (`save_lora`), 494-520 (`initialize_from_log`), and PyTorch's
`state_dict` and `load_state_dict`.
-/
import Verif.Model.Modules
import Verif.Model.State

namespace Logix
variable {K : Type}

def nLora : PyStr := ['l', 'o', 'g', 'i', 'x', '_', 'l', 'o', 'r', 'a']
def nRandom : PyStr := ['r', 'a', 'n', 'd', 'o', 'm']
def nPath : PyStr := ['p', 'a', 't', 'h']
def nPathDim : PyStr := ['p', 'a', 't', 'h', '_', 'd', 'i', 'm']

/-- `torch.nn.Module.state_dict`: the names of the parameters and which parameter each one is; the parameters of a module come before those
of its submodules, and a module that is referred to twice is visited twice. Buffers are not modelled. The number bounds the depth. -/
def MHeap.stateItemsFrom (h : MHeap K) : Nat → PyStr → Nat → List (PyStr × Nat)
  | 0, _, _ => []
  | n + 1, pre, id =>
    match h.mods[id]? with
    | none => []
    | some m => m.params.map (fun e => (pre ++ e.1, e.2)) ++ m.children.flatMap fun e => h.stateItemsFrom n (pre ++ e.1 ++ ['.']) e.2

/-- The names and parameters of the model; more levels than there are modules are never needed. -/
def MHeap.stateItems (h : MHeap K) (root : Nat) : List (PyStr × Nat) := h.stateItemsFrom (h.mods.length + 1) [] root

/-- The entries of `model.state_dict()` with the given names and parameters. -/
def MHeap.stateDictOf (h : MHeap K) (items : List (PyStr × Nat)) : Dict PyStr (Tensor K) :=
  items.foldl (fun d e =>
    match h.params[e.2]? with
    | none => d
    | some p => Dict.set d e.1 p.val) []

/-- `model.state_dict()` -/
def MHeap.stateDict (h : MHeap K) (root : Nat) : Dict PyStr (Tensor K) := h.stateDictOf (h.stateItems root)

/-- logix/logix.py:480-482: the entries whose name contains "logix_lora". -/
def MHeap.loraDict (h : MHeap K) (root : Nat) : Dict PyStr (Tensor K) := (h.stateDict root).filter fun e => isSub nLora e.1

/-- `param.copy_(t)` in `load_state_dict`: the parameter keeps its device. -/
def MHeap.copyTo (h : MHeap K) (i : Nat) (t : Tensor K) : MHeap K := h.mapParam i fun u => t.onDev u.dev

/-- The loop of `torch.nn.Module.load_state_dict(sd, strict=False)` over the model's parameters: those with an entry in `sd` are overwritten.
An entry of another shape raises RuntimeError (PyTorch goes on with the others first). -/
def MHeap.loadItems (sd : Dict PyStr (Tensor K)) : List (PyStr × Nat) → MHeap K → Py (MHeap K)
  | [], h => .ok h
  | (k, i) :: rest, h =>
    match Dict.get? sd k, h.params[i]? with
    | some t, some p => if t.shape = p.val.shape then MHeap.loadItems sd rest (h.copyTo i t) else .error .runtimeError
    | _, _ => MHeap.loadItems sd rest h

/-- logix/logix.py:212-215 and 514-517: all names must be names of the model (AssertionError), then `load_state_dict(sd, strict=False)`. -/
def MHeap.loadLora (h : MHeap K) (root : Nat) (sd : Dict PyStr (Tensor K)) : Py (MHeap K) :=
  if sd.all fun e => (Dict.get? (h.stateDict root) e.1).isSome then MHeap.loadItems sd (h.stateItems root) h else .error .assertionError

/-- `LoRAConfig`, logix/config.py:96-105. -/
structure LoraCfg where
  init : PyStr
  rank : Nat
  sharing : Bool
  groups : Option (List PyStr)
  deriving DecidableEq

/-- What a log directory contains, besides the chunks: `lora/lora_state_dict.pt`, the LoRA part of `config.yaml`, and `state/`. That the directory
`lora` can exist without the file (after a crash in `save_lora`) is not modelled. -/
structure RunDir (K : Type) where
  lora : Option (Dict PyStr (Tensor K))
  config : Option LoraCfg
  state : StateDir K

/-- The parts of a `LogIX` object that LoRA concerns, the program's modules, and the disk. `handler` has the attributes of `lora_handler`, if it
exists (logix/logix.py:200-201, logix/lora/lora.py:33-39). -/
structure LRun (K : Type) where
  heap : MHeap K
  model : Option Nat
  watched : WatchSt
  st : LState K
  cfg : LoraCfg
  handler : Option LoraCfg
  logDir : PyStr
  dirs : PyStr → RunDir K

/-- What is not modelled in detail: random initialisation (the value of the parameter with number `i`) and `torch.linalg.svd`. -/
structure LoraLib (K : Type) where
  rand : Nat → List Nat → K
  svd : Tensor K → Py (Tensor K × Tensor K × Tensor K)

namespace LRun

/-- Writes into the log directory. -/
def writeDir (s : LRun K) (f : RunDir K → RunDir K) : LRun K :=
  { s with dirs := fun d => if d = s.logDir then f (s.dirs d) else s.dirs d }

/-- logix/logix.py:475-487 `save_lora`; without entries nothing is written. -/
def saveLora (s : LRun K) (root : Nat) : LRun K :=
  let sd := s.heap.loraDict root
  if sd.isEmpty then s else s.writeDir fun d => { d with lora := some sd }

/-- logix/logix.py:101-148 `watch` with the filters given, for one process: Model/Modules, and what `set_state` stores. -/
def watch (s : LRun K) (root : Nat) (typeFilter nameFilter : Option (List PyStr)) : Py (LRun K) :=
  match Logix.watch s.heap root typeFilter nameFilter s.watched with
  | (_, some e) => .error e
  | ((h, w), none) =>
    match s.st.setState nModelModule nPath (.paths (w.path.map fun n => (n, LogType.name .grad))) with
    | .error e => .error e
    | .ok st =>
      match st.setState nModelModule nPathDim (.dims w.dims) with
      | .error e => .error e
      | .ok st => .ok { s with heap := h, watched := w, st := st, model := some root }

/-- logix/logix.py:558-563 `clear`; the hooks and the buffer are not part of this model. -/
def clear (s : LRun K) : Py (LRun K) :=
  match s.st.clear with
  | .error e => .error e
  | .ok st => .ok { s with st := st, watched := s.watched.clear }

/-- logix/lora/lora.py:50-55: without covariances the handler changes to random initialisation for good. -/
def handlerInit (c : LoraCfg) (cov : StateDict K) : LoraCfg := if c.init = nPca ∧ cov.isEmpty then { c with init := nRandom } else c

/-- logix/logix.py:209-215: `lora_path` of `add_lora`. -/
def loadPath (s : LRun K) (root : Nat) : Option PyStr → Py (LRun K)
  | none => .ok s
  | some p =>
    match (s.dirs p).lora with
    | none => .error .fileNotFoundError
    | some sd =>
      match s.heap.loadLora root sd with
      | .error e => .error e
      | .ok h => .ok { s with heap := h }

/-- The arguments of `add_lora` with their defaults. -/
structure Args where
  watch : Bool := true
  clear : Bool := true
  typeFilter : Option (List PyStr) := none
  nameFilter : Option (List PyStr) := none
  loraPath : Option PyStr := none
  loraConfig : Option LoraCfg := none

/-- logix/logix.py:197-207: the configuration, the handler (made once), and the LoRA layers. -/
def addLayers [Zero K] (L : LoraLib K) (s : LRun K) (root : Nat) (a : Args) : Py (LRun K) :=
  let s := { s with cfg := a.loraConfig.getD s.cfg }
  let c := s.handler.getD s.cfg
  match s.st.getAttr nCov with
  | .error e => .error e
  | .ok cov =>
    match LoraEnv.ofState c.rank c.sharing c.groups L.rand c.init L.svd s.st with
    | .error e => .error e
    | .ok E =>
      match Logix.addLora E s.heap root (orFilter a.typeFilter s.watched.typeFilter) (orFilter a.nameFilter s.watched.nameFilter) with
      | .error e => .error e
      | .ok h => .ok { s with heap := h, handler := some (handlerInit c cov) }

/-- logix/logix.py:164-230 `LogIX.add_lora` on a process that is rank 0 or not. Without a model `None.parameters()` raises AttributeError. -/
def addLora [Zero K] (L : LoraLib K) (rank0 : Bool) (s : LRun K) (a : Args) : Py (LRun K) :=
  match s.model with
  | none => .error .attributeError
  | some root =>
    match s.addLayers L root a with
    | .error e => .error e
    | .ok s =>
      match s.loadPath root a.loraPath with
      | .error e => .error e
      | .ok s =>
        let s := if rank0 then s.saveLora root else s
        match (if a.clear || a.watch then s.clear else .ok s) with
        | .error e => .error e
        | .ok s => if a.watch then s.watch root none none else .ok s

/-- `path or self.log_dir`: `None` and the empty string count as false. -/
def orDir (s : LRun K) (path : Option PyStr) : PyStr :=
  match path with
  | none => s.logDir
  | some [] => s.logDir
  | some p => p

/-- logix/logix.py:509-517: the LoRA part of `initialize_from_log`. The file is read after `add_lora` has returned. -/
def restoreLora [Zero K] (L : LoraLib K) (rank0 : Bool) (s : LRun K) (loraPath : Option PyStr) : Py (LRun K) :=
  match s.model, (s.dirs (s.orDir loraPath)).lora with
  | some root, some _ =>
    match (if s.heap.isLora root then .ok s else s.addLora L rank0 {}) with
    | .error e => .error e
    | .ok s => s.loadPath root (some (s.orDir loraPath))
  | _, _ => .ok s

/-- logix/logix.py:494-520 `initialize_from_log`. Of the configuration only the part for LoRA is modelled here (Model/Config has the rest); a missing
file raises AssertionError. -/
def initializeFromLog [Zero K] (L : LoraLib K) (rank0 : Bool) (s : LRun K) (statePath loraPath : Option PyStr) : Py (LRun K) :=
  match (s.dirs s.logDir).config with
  | none => .error .assertionError
  | some c =>
    match { s with cfg := c }.restoreLora L rank0 loraPath with
    | .error e => .error e
    | .ok s =>
      match s.st.loadState (s.dirs (s.orDir statePath)).state with
      | .error e => .error e
      | .ok st => .ok { s with st := st }

/-- logix/logix.py:522-535 `finalize` on rank 0, without the buffered logs. -/
def finalize [Field K] (s : LRun K) : Py (LRun K) :=
  match s.st.finalize (s.dirs s.logDir).state with
  | .error e => .error e
  | .ok (st, dir) => .ok ({ s with st := st }.writeDir fun d => { d with state := dir, config := some s.cfg })

end LRun
end Logix
